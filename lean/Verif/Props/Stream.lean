/-
Property C109: what the query commands print while they run, also on a standard output that breaks.
-/
import Verif.Proofs.Stream
import Verif.Props.Main
import Verif.Props.ShortestPath
namespace GC
namespace Stream
open DirectedGraph Store Text Main Args Job

variable {H : ScoredHeap} {nd : Char → Bool} {order : DirectedGraph → DirectedGraph} {root : FPath} {fs : FS}

theorem flatten_lines (ls : List Text) : (ls.map (· ++ ['\n'])).flatten = ls.flatMap fun l => l ++ ['\n'] := rfl

theorem prints_say (t : Text) : Prints (say t) (Prog.ret (t ++ ['\n'])) :=
  prints_fixed (ps := [t ++ ['\n']]) (fun _ => rfl) (by simp) (ended_lines [t])

theorem prints_of_eq {j : Job Unit} {p q : Prog Text} (h : Prints j p) (e : p = q) : Prints j q := e ▸ h

theorem bind_ret {α β γ : Type} (p : Prog α) (f : α → β) (g : β → Prog γ) :
    Prog.bind (Prog.bind p fun a => Prog.ret (f a)) g = Prog.bind p fun a => g (f a) := by
  funext n
  unfold Prog.bind
  cases p n <;> rfl

theorem bind_bind {α β γ : Type} (p : Prog α) (f : α → Prog β) (g : β → Prog γ) :
    Prog.bind (Prog.bind p f) g = Prog.bind p fun a => Prog.bind (f a) g := by
  funext n
  unfold Prog.bind
  cases p n <;> rfl

theorem prints_topoSort : Prints (gcTopoSort nd order root fs) (Main.gcTopoSort nd order root fs) := by
  refine prints_lift fun graph => prints_lift fun r => ?_
  cases r with
  | none => exact prints_say _
  | some vs =>
    unfold topoAnswer topoText
    dsimp only
    generalize "Topological order: ".toList = str
    refine prints_fixed (ps := str :: (vs.map fun v => showId v ++ [' ']) ++ [['\n']]) (fun n => ?_) ?_ ?_
    · rw [bind_done (ps := [str]) (a := ()) rfl, bind_done (printAll_eq _ n)]
      rfl
    · simp [List.flatMap]
    · intro p hp
      rw [List.getLast?_append] at hp
      simp at hp
      subst hp
      rfl

/-- A line and then one vertex per line. -/
theorem prints_path (line : Text) (vs : List VertexId) :
    Prints (Job.bind (say line) fun _ => sayAll (vs.map showId)) (Prog.ret (line ++ ['\n'] ++ vertexLines vs)) := by
  refine prints_fixed (ps := (line :: vs.map showId).map (· ++ ['\n'])) (fun n => ?_) ?_ (ended_lines _)
  · rw [bind_done (ps := [line ++ ['\n']]) (a := ()) rfl, sayAll_eq]
    rfl
  · simp [vertexLines, List.flatMap, Function.comp_def]

theorem prints_shortPath (start end_ : Text) :
    Prints (gcShortPath H nd order root start end_ fs) (Main.gcShortPath H nd order root start end_ fs) := by
  refine prints_lift fun s => prints_lift fun e => prints_lift fun graph => prints_lift fun r => ?_
  cases r with
  | none =>
    refine prints_of_eq (prints_say _) ?_
    unfold shortPathText
    rw [show ".\n".toList = ['.'] ++ ['\n'] from rfl]
    simp only [List.append_assoc]
  | some sp => exact prints_path _ _

theorem announce_eq (cs : List Constraint) (n : Nat) :
    announce cs n = ⟨("Constraint that will be applied to search are: ".toList :: cs.map debugConstraint).map (· ++ ['\n']), .done ()⟩ := by
  unfold announce
  rw [bind_done (ps := ["Constraint that will be applied to search are: ".toList ++ ['\n']]) (a := ()) rfl, sayAll_eq]
  rfl

theorem announce_text (cs : List Constraint) :
    (("Constraint that will be applied to search are: ".toList :: cs.map debugConstraint).map (· ++ ['\n'])).flatten = constraintsText cs := by
  unfold constraintsText
  rw [show "Constraint that will be applied to search are: \n".toList = "Constraint that will be applied to search are: ".toList ++ ['\n'] by
    decide +kernel]
  generalize "Constraint that will be applied to search are: ".toList = str
  simp [List.flatMap, Function.comp_def]

theorem prints_cspAnswer (s e : VertexId) (r : Option ScoredPath) : Prints (cspAnswer s e r) (Prog.ret (cspText s e r)) := by
  cases r with
  | none =>
    refine prints_of_eq (prints_say _) ?_
    unfold cspText
    rw [show " within the given constraints.\n".toList = " within the given constraints.".toList ++ ['\n'] by decide +kernel]
    generalize " within the given constraints.".toList = str
    simp only [List.append_assoc]
  | some sp =>
    refine prints_of_eq (prints_path _ _) ?_
    unfold cspText
    rw [show ".\n".toList = ['.'] ++ ['\n'] from rfl]
    simp only [List.append_assoc]

theorem prints_csp (start end_ : Text) (a : CspArgs) :
    Prints (gcCsp H nd order root start end_ a fs) (Main.gcCsp H nd order root start end_ a fs) := by
  refine prints_lift fun s => prints_lift fun e => prints_lift fun graph => ?_
  refine prints_of_eq (prints_after (announce_eq _) (announce_text _) (ended_lines _) (prints_lift fun r => prints_cspAnswer s e r)) ?_
  rw [bind_ret]

theorem prints_cycle (act : GcCycle.Actions) (a : CycleArgs) :
    Prints (gcCycle nd order root act a fs)
      (Prog.bind (Main.gcCycle nd order root act a fs) fun lines => Prog.ret (lines.flatMap fun l => l ++ ['\n'])) := by
  unfold Main.gcCycle
  rw [bind_bind]
  refine prints_lift fun graph => ?_
  have one : ∀ {α : Type} (p : Prog α) (f : α → Text), Prints (Job.bind (lift p) fun r => say (f r))
      (Prog.bind (Prog.bind p fun r => Prog.ret [f r]) fun lines => Prog.ret (lines.flatMap fun l => l ++ ['\n'])) := by
    intro α p f
    rw [bind_ret]
    exact prints_lift fun r => prints_of_eq (prints_say _) (by simp)
  unfold cycleActions GcCycle.main
  dsimp only
  generalize GcCycle.takeN act = tn
  split
  · exact one _ _
  · split
    · exact one _ _
    · split
      · exact one _ _
      · split
        · exact one _ _
        · split
          · exact one _ _
          · cases tn with
            | some n =>
              dsimp only
              rw [bind_ret]
              refine prints_of_eq (prints_forEachOf _ _ _) ?_
              congr 1
              funext l
              simp [itemLines, List.flatMap_map]
            | none =>
              dsimp only
              split
              · rw [bind_ret]
                refine prints_of_eq (prints_forEach _ _) ?_
                congr 1
                funext l
                simp [itemLines, List.flatMap_map]
              · exact prints_fixed (ps := []) (fun _ => rfl) rfl (fun p hp => by cases hp)

theorem prints_desc (path : Text) : Prints (gcDesc nd path root fs)
    (Prog.bind (Prog.lift (Store.gcDesc nd root fs)) fun d => Prog.ret (descText path d)) := by
  refine prints_lift fun d => ?_
  refine prints_fixed (fun n => sayAll_eq _ n) ?_ (ended_lines _)
  have h1 : "\nVertices: ".toList = '\n' :: "Vertices: ".toList := by decide +kernel
  have h2 : "\nEdges: ".toList = '\n' :: "Edges: ".toList := by decide +kernel
  have h3 : "\nMin vertex id: ".toList = '\n' :: "Min vertex id: ".toList := by decide +kernel
  have h4 : "\nMax vertex id: ".toList = '\n' :: "Max vertex id: ".toList := by decide +kernel
  unfold descText
  rw [h1, h2, h3, h4]
  generalize "Path: ".toList = s0
  generalize "Vertices: ".toList = s1
  generalize "Edges: ".toList = s2
  generalize "Min vertex id: ".toList = s3
  generalize "Max vertex id: ".toList = s4
  simp only [List.map_cons, List.map_nil, List.flatten_cons, List.flatten_nil, List.append_assoc, List.append_nil, List.cons_append,
    List.nil_append]

theorem prints_query (q : Query) : Prints (q.job H nd order root fs) (q.text H nd order root fs) := by
  cases q with
  | topoSort => exact prints_topoSort
  | shortPath s e => exact prints_shortPath s e
  | csp s e a => exact prints_csp s e a
  | cycle act a => exact prints_cycle act a
  | desc p => exact prints_desc p

theorem mono_filterNext {σ α : Type} {next : σ → Prog (Option (α × σ))} (h : ∀ s, Mono (next s)) (p : α → Bool) (s : σ) :
    Mono (Prog.filterNext p next s) := by
  refine Mono.loop (fun s => Mono.bind (h s) fun r => ?_) s
  rcases r with _ | ⟨x, s'⟩
  · exact Mono.ret _
  · dsimp only
    split <;> exact Mono.ret _

theorem mono_gcCycle_next (g : DirectedGraph) (cs : List Constraint) (s : CycleIter) : Mono (GcCycle.next g cs s) :=
  mono_filterNext (mono_cycle_next g) _ s

theorem mono_consume {σ α β : Type} {next : σ → Prog (Option (α × σ))} (h : ∀ s, Mono (next s)) (f : List α → β) (s : σ) :
    Mono (Prog.consume f next s) := Mono.bind (Mono.collect h s) fun _ => Mono.ret _

theorem steady_query (q : Query) : Steady (q.job H nd order root fs) := by
  have hload : Steady (lift (loadedGraph nd order root fs)) := steady_lift (Mono.lift _)
  cases q with
  | topoSort =>
    refine steady_bind hload fun g => steady_bind (steady_lift (topologicalSort_mono g)) fun r => ?_
    cases r with
    | none => exact steady_say _
    | some vs => exact steady_bind (steady_print _) fun _ => steady_bind (steady_printAll _) fun _ => steady_say _
  | shortPath s e =>
    refine steady_bind (steady_lift (Mono.lift _)) fun s => steady_bind (steady_lift (Mono.lift _)) fun e => steady_bind hload fun g =>
      steady_bind (steady_lift ?_) fun r => ?_
    · unfold AStar.gcShortPath AStar.shortestPath
      refine Mono.bind (Mono.lift _) fun s => Mono.find (fun s => ?_) _ _
      unfold BestFirstIter.next
      split
      · exact Mono.ret _
      · exact Mono.lift _
    · cases r with
      | none => exact steady_say _
      | some sp => exact steady_bind (steady_say _) fun _ => steady_sayAll _
  | csp s e a =>
    refine steady_bind (steady_lift (Mono.lift _)) fun s => steady_bind (steady_lift (Mono.lift _)) fun e => steady_bind hload fun g =>
      steady_bind (steady_bind (steady_say _) fun _ => steady_sayAll _) fun _ => steady_bind (steady_lift ?_) fun r => ?_
    · unfold AStar.gcCsp AStar.constrainedShortestPath
      exact Mono.bind (Mono.lift _) fun s => Mono.find ConstrainedBestFirstIter.mono_next _ _
    · cases r with
      | none => exact steady_say _
      | some sp => exact steady_bind (steady_say _) fun _ => steady_sayAll _
  | cycle act a =>
    refine steady_bind hload fun g => ?_
    unfold cycleActions
    dsimp only
    have hn := mono_gcCycle_next g (cycleConstraints a)
    split
    · exact steady_bind (steady_lift (mono_consume (mono_cycle_next g) _ _)) fun _ => steady_say _
    · split
      · exact steady_bind (steady_lift (Mono.bind (mono_filterNext (mono_cycle_next g) _ _) fun _ => Mono.ret _)) fun _ => steady_say _
      · split
        · exact steady_bind (steady_lift (mono_consume hn _ _)) fun _ => steady_say _
        · split
          · exact steady_bind (steady_lift (mono_consume hn _ _)) fun _ => steady_say _
          · split
            · exact steady_bind (steady_lift (mono_consume hn _ _)) fun _ => steady_say _
            · split
              · exact steady_forEachOf hn _ _ _
              · split
                · exact steady_forEach hn _ _
                · exact steady_ret _
  | desc p => exact steady_bind (steady_lift (Mono.lift _)) fun _ => steady_sayAll _

/-! ### C109 -/

open Classical in
/-- C109: a query command that has an answer ends, whatever standard output takes; as much of the answer as fits arrives, and the exit
code is 0 exactly if all of it fits. -/
theorem C109_answer_arrives (H : ScoredHeap) (nd : Char → Bool) (order : DirectedGraph → DirectedGraph) (root : FPath) (fs : FS) (q : Query)
    (t : Text) (h : Returns (q.text H nd order root fs) t) :
    ∃ n, ∀ m, n ≤ m → ∀ room, onStdout (q.job H nd order root fs m) (.fresh room) =
      (takeRoom room t, if Overfull room t then .panicked else .done ()) := by
  obtain ⟨n, hn⟩ := h
  refine ⟨n, fun m hm room => ?_⟩
  obtain ⟨h1, h2, h3⟩ := (prints_query (H := H) (nd := nd) (order := order) (root := root) (fs := fs) q m).1 t (hn m hm)
  subst h2
  have he : q.job H nd order root fs m = ⟨(q.job H nd order root fs m).pieces, .done ()⟩ := by rw [← h1]
  have := onStdout_done h3 room
  rwa [← he] at this

/-- C109: at any moment of its run, what has arrived is a beginning of the answer. -/
theorem C109_only_the_answer (H : ScoredHeap) (nd : Char → Bool) (order : DirectedGraph → DirectedGraph) (root : FPath) (fs : FS) (q : Query)
    (t : Text) (h : Returns (q.text H nd order root fs) t) (n : Nat) (room : Option Nat) :
    (onStdout (q.job H nd order root fs n) (.fresh room)).1 <+: t := by
  obtain ⟨k, hk⟩ := h
  refine (onStdout_prefix _ room).trans ?_
  obtain ⟨_, h2, _⟩ := (prints_query (H := H) (nd := nd) (order := order) (root := root) (fs := fs) q (max n k)).1 t (hk _ (by omega))
  rw [← h2]
  obtain ⟨u, hu⟩ := (steady_query (H := H) (nd := nd) (order := order) (root := root) (fs := fs) q n (max n k) (by omega)).1
  rw [← hu, List.flatten_append]
  exact List.prefix_append _ _

/-- C109: exit code 0 means that the whole answer has arrived. -/
theorem C109_exit_zero (H : ScoredHeap) (nd : Char → Bool) (order : DirectedGraph → DirectedGraph) (root : FPath) (fs : FS) (q : Query)
    (n : Nat) (room : Option Nat) (out : Text) (h : onStdout (q.job H nd order root fs n) (.fresh room) = (out, .done ())) :
    Returns (q.text H nd order root fs) out := by
  have hp := prints_query (H := H) (nd := nd) (order := order) (root := root) (fs := fs) q
  have hs := steady_query (H := H) (nd := nd) (order := order) (root := root) (fs := fs) q
  have hd : (q.job H nd order root fs n).outcome = .done () := by
    unfold onStdout at h
    split at h
    · split at h
      · injection h with _ h; cases h
      · injection h
    · injection h with _ h; cases h
  have hsame : ∀ m, n ≤ m → q.job H nd order root fs m = q.job H nd order root fs n := fun m hm => (hs n m hm).2 (by rw [hd]; simp)
  have hdone : ∀ m, n ≤ m → ∃ t, q.text H nd order root fs m = .done t ∧ (q.job H nd order root fs n).pieces.flatten = t ∧
      Ended (q.job H nd order root fs n).pieces := by
    intro m hm
    obtain ⟨h1, h2, h3⟩ := hp m
    rw [hsame m hm] at h1 h2 h3
    rcases e : q.text H nd order root fs m with _ | _ | t
    · rw [hd] at h3; cases h3 e
    · rw [hd] at h2; cases h2 e
    · exact ⟨t, rfl, (h1 t e).2⟩
  obtain ⟨t, _, rfl, h3⟩ := hdone n (Nat.le_refl _)
  have hr : Returns (q.text H nd order root fs) (q.job H nd order root fs n).pieces.flatten := ⟨n, fun m hm => by
    obtain ⟨t, h1, h2, _⟩ := hdone m hm
    rw [h1, h2]⟩
  have he : q.job H nd order root fs n = ⟨(q.job H nd order root fs n).pieces, .done ()⟩ := by rw [← hd]
  classical
  have ho := onStdout_done h3 room
  rw [← he, h] at ho
  injection ho with ho1 ho2
  have hfit : ¬ Overfull room (q.job H nd order root fs n).pieces.flatten := fun c => by rw [if_pos c] at ho2; cases ho2
  rw [ho1]
  cases room with
  | none => exact hr
  | some r =>
    rw [takeRoom, List.take_of_length_le]
    · exact hr
    · exact Nat.le_of_not_lt fun c => hfit ⟨r, rfl, c⟩

/-- C109: a query command that panics also panics when standard output breaks before. -/
theorem C109_no_answer (H : ScoredHeap) (nd : Char → Bool) (order : DirectedGraph → DirectedGraph) (root : FPath) (fs : FS) (q : Query)
    (h : Panics (q.text H nd order root fs)) :
    ∃ n, ∀ m, n ≤ m → ∀ room, (onStdout (q.job H nd order root fs m) (.fresh room)).2 = .panicked := by
  obtain ⟨n, hn⟩ := h
  refine ⟨n, fun m hm room => ?_⟩
  have h1 := (prints_query (H := H) (nd := nd) (order := order) (root := root) (fs := fs) q m).2.1 (hn m hm)
  have he : q.job H nd order root fs m = ⟨(q.job H nd order root fs m).pieces, .panicked⟩ := by rw [← h1]
  rw [he, onStdout_panicked]

theorem writes_append (ps qs : List Text) (o : Stdout) : Stdout.writes (ps ++ qs) o = Stdout.andThen (Stdout.writes ps o) (Stdout.writes qs) := by
  induction ps generalizing o with
  | nil => rfl
  | cons p ps ih =>
    rw [List.cons_append, Stdout.writes, Stdout.writes]
    generalize Stdout.write p o = r
    obtain ⟨o1, ok⟩ := r
    cases ok with
    | true => exact ih o1
    | false => rfl

/-- What has arrived after a beginning of the pieces has arrived at the end. -/
theorem onStdout_grows (ps qs : List Text) (out : Run Unit) (o : Stdout) :
    (Stdout.writes ps o).1.arrived <+: (onStdout ⟨ps ++ qs, out⟩ o).1 := by
  have key : (Stdout.writes ps o).1.arrived <+: (Stdout.writes (ps ++ qs) o).1.arrived := by
    rw [writes_append]
    generalize Stdout.writes ps o = r
    obtain ⟨o1, ok⟩ := r
    cases ok with
    | true => exact (wrote_writes qs o1).1.grows
    | false => exact List.prefix_refl _
  unfold onStdout
  generalize Stdout.writes (ps ++ qs) o = r at key
  obtain ⟨o1, ok⟩ := r
  have hf := (wrote_flush o1).1.grows
  cases ok with
  | true =>
    dsimp only
    split
    · exact key
    · exact key.trans hf
  | false => exact key.trans hf

theorem written_lines {ps : List Text} (he : Ended ps) (room : Option Nat) :
    takeRoom room ps.flatten <+: (Stdout.writes ps (.fresh room)).1.arrived := by
  have hb := (wrote_writes ps (.fresh room)).2 he (.inr rfl)
  generalize hw : Stdout.writes ps (.fresh room) = r at hb
  obtain ⟨o, ok⟩ := r
  rcases arrived_cases hw with ⟨h0, h1, h2⟩ | ⟨h0, h1, h3, h4⟩
  · subst h0
    rw [hb rfl, List.append_nil] at h1
    rw [← h1]
    exact takeRoom_prefix _ _
  · rw [h3]

/-- C109: what has arrived stays, and more may arrive. -/
theorem C109_only_more (H : ScoredHeap) (nd : Char → Bool) (order : DirectedGraph → DirectedGraph) (root : FPath) (fs : FS) (q : Query)
    (n m : Nat) (h : n ≤ m) (room : Option Nat) :
    (onStdout (q.job H nd order root fs n) (.fresh room)).1 <+: (onStdout (q.job H nd order root fs m) (.fresh room)).1 := by
  obtain ⟨h1, h2⟩ := steady_query (H := H) (nd := nd) (order := order) (root := root) (fs := fs) q n m h
  by_cases hr : (q.job H nd order root fs n).outcome = .running
  · generalize q.job H nd order root fs n = r at h1 h2 hr
    generalize q.job H nd order root fs m = r' at h1 h2
    obtain ⟨ps, out⟩ := r
    obtain ⟨ps', out'⟩ := r'
    dsimp only at hr h1
    subst hr
    obtain ⟨qs, rfl⟩ := h1
    have key := onStdout_grows ps qs out' (.fresh room)
    rcases hw : Stdout.writes ps (.fresh room) with ⟨o, _ | _⟩
    · -- the output broke already
      have e1 : onStdout ⟨ps, .running⟩ (.fresh room) = (o.flush.1.arrived, .panicked) := by unfold onStdout; rw [hw]
      have e2 : onStdout ⟨ps ++ qs, out'⟩ (.fresh room) = (o.flush.1.arrived, .panicked) := by
        unfold onStdout; rw [writes_append, hw]; rfl
      rw [e1, e2]
    · have e1 : onStdout ⟨ps, .running⟩ (.fresh room) = (o.arrived, .running) := by unfold onStdout; rw [hw]
      rw [hw] at key
      rw [e1]
      exact key
  · rw [h2 hr]

/-- C109: gc-csp prints its constraints before it searches, so they arrive even if the search never ends. -/
theorem C109_constraints_first (H : ScoredHeap) (nd : Char → Bool) (order : DirectedGraph → DirectedGraph) (root : FPath) (fs : FS)
    (g : DirectedGraph) (h : loadGraph nd root fs = .done (.ok g)) (start end_ : Text) (s e : VertexId) (hs : ArgId start s)
    (he : ArgId end_ e) (a : CspArgs) (n : Nat) (room : Option Nat) :
    takeRoom room (constraintsText (cspConstraints a)) <+:
      (onStdout ((Query.csp start end_ a).job H nd order root fs n) (.fresh room)).1 := by
  obtain ⟨qs, out, hj⟩ : ∃ qs out, (Query.csp start end_ a).job H nd order root fs n =
      ⟨("Constraint that will be applied to search are: ".toList :: (cspConstraints a).map debugConstraint).map (· ++ ['\n']) ++ qs, out⟩ := by
    unfold Query.job gcCsp
    dsimp only
    rw [endpoint_ok hs, endpoint_ok he, bind_done (ps := []) (a := s) rfl, bind_done (ps := []) (a := e) rfl,
      bind_done (ps := []) (a := order g) (by unfold lift loadedGraph; rw [h]; rfl), bind_done (announce_eq _ n)]
    exact ⟨_, _, rfl⟩
  rw [hj, ← announce_text]
  exact (written_lines (ended_lines _) room).trans (onStdout_grows _ qs out _)

/-- C109: gc-cycle prints each cycle as soon as it is found: when the first `k` cycles can be found, their lines arrive also if all cycles
are asked for, however long the rest takes. -/
theorem C109_cycles_as_found (H : ScoredHeap) (nd : Char → Bool) (order : DirectedGraph → DirectedGraph) (root : FPath) (fs : FS)
    (a : CycleArgs) (arg : Text) (k : Nat) (hk : parseUsize arg = some k) (t : Text)
    (h : Returns ((Query.cycle { takeN := some arg } a).text H nd order root fs) t) :
    ∃ n, ∀ m, n ≤ m → ∀ room, takeRoom room t <+: (onStdout ((Query.cycle { all := true } a).job H nd order root fs m) (.fresh room)).1 := by
  obtain ⟨n, hn⟩ := h
  have hp := prints_query (H := H) (nd := nd) (order := order) (root := root) (fs := fs) (.cycle { takeN := some arg } a)
  refine ⟨max n k, fun m hm room => ?_⟩
  obtain ⟨h1, h2, h3⟩ := (hp m).1 t (hn m (by omega))
  subst h2
  -- the pieces of the first `k` cycles are the first pieces of all cycles
  have key : ∀ (graph : DirectedGraph) (j : Nat) (s : CycleIter) (ps : List Text),
      forEachOf (GcCycle.next graph (cycleConstraints a)) GcCycle.formatCycle j s m = ⟨ps, .done ()⟩ →
      ps <+: (loopAux (forEachStep (GcCycle.next graph (cycleConstraints a)) GcCycle.formatCycle) m j s).pieces := by
    intro graph j
    induction j with
    | zero =>
      intro s ps he
      injection he with he _
      subst he
      exact List.nil_prefix
    | succ j ih =>
      intro s ps he
      unfold forEachOf at he
      unfold loopAux
      rcases e : GcCycle.next graph (cycleConstraints a) s m with _ | _ | _ | ⟨x, s'⟩
      · rw [bind_running (ps := []) (by unfold lift; rw [e])] at he
        injection he with _ he; cases he
      · rw [bind_panicked (ps := []) (by unfold lift; rw [e])] at he
        injection he with _ he; cases he
      · rw [bind_done (ps := []) (a := none) (by unfold lift; rw [e])] at he
        injection he with he _
        subst he
        exact List.nil_prefix
      · rw [bind_done (ps := []) (a := some (x, s')) (by unfold lift; rw [e])] at he
        have h2 : forEachStep (GcCycle.next graph (cycleConstraints a)) GcCycle.formatCycle s m =
            ⟨[GcCycle.formatCycle x ++ ['\n']], .done (.inl s')⟩ := by
          unfold forEachStep
          rw [bind_done (ps := []) (a := some (x, s')) (by unfold lift; rw [e])]
          rfl
        rw [h2]
        dsimp only at he ⊢
        rw [bind_done (p := say (GcCycle.formatCycle x)) (ps := [GcCycle.formatCycle x ++ ['\n']]) (a := ()) rfl] at he
        rcases e' : forEachOf (GcCycle.next graph (cycleConstraints a)) GcCycle.formatCycle j s' m with ⟨ps', out'⟩
        rw [e'] at he
        injection he with he1 he2
        dsimp only at he1 he2
        subst he2
        have := ih s' ps' e'
        rw [← he1]
        simpa using this
  obtain ⟨qs, out, hj⟩ : ∃ qs out, (Query.cycle { all := true } a).job H nd order root fs m =
      ⟨((Query.cycle { takeN := some arg } a).job H nd order root fs m).pieces ++ qs, out⟩ := by
    unfold Query.job gcCycle at h1 ⊢
    dsimp only at h1 ⊢
    rcases e : loadedGraph nd order root fs m with _ | _ | graph
    · rw [bind_running (ps := []) (by unfold lift; rw [e])] at h1
      cases h1
    · rw [bind_panicked (ps := []) (by unfold lift; rw [e])] at h1
      cases h1
    · rw [bind_done (ps := []) (a := graph) (by unfold lift; rw [e])] at h1
      rw [bind_done (ps := []) (a := graph) (by unfold lift; rw [e]), bind_done (ps := []) (a := graph) (by unfold lift; rw [e])]
      have ht : GcCycle.takeN { takeN := some arg } = some k := by simp [GcCycle.takeN, hk]
      have e1 : cycleActions graph { takeN := some arg } a =
          forEachOf (GcCycle.next graph (cycleConstraints a)) GcCycle.formatCycle k (CycleIter.cycleIter graph) := by
        simp [cycleActions, ht]
      have e2 : cycleActions graph { all := true } a =
          forEach (GcCycle.next graph (cycleConstraints a)) GcCycle.formatCycle (CycleIter.cycleIter graph) := by
        simp [cycleActions, GcCycle.takeN]
      rw [e1] at h1 ⊢
      rw [e2]
      dsimp only at h1 ⊢
      have hstep : ∀ s, Steady (forEachStep (GcCycle.next graph (cycleConstraints a)) GcCycle.formatCycle s) := by
        intro s
        refine steady_bind (steady_lift (mono_gcCycle_next graph _ s)) fun r => ?_
        rcases r with _ | ⟨x, s'⟩
        · exact steady_ret _
        · exact steady_bind (steady_say _) fun _ => steady_ret _
      have k1 := key graph k (CycleIter.cycleIter graph) _ (by rw [← h1])
      have k2 := (steady_loopAux hstep m m k m (Nat.le_refl _) (by omega) (CycleIter.cycleIter graph)).1
      obtain ⟨qs, hq⟩ := k1.trans k2
      exact ⟨qs, _, by simp only [List.nil_append]; unfold forEach loop; rw [hq]⟩
  rw [hj]
  exact (written_lines h3 room).trans (onStdout_grows _ qs out _)

/-- C109: gc-cycle on a stored graph: at any moment the text that has arrived is a beginning of the lines of the cycles of the whole answer,
which are different and are cycles of the graph. -/
theorem C109_cycles_so_far (H : ScoredHeap) (nd : Char → Bool) (order : DirectedGraph → DirectedGraph) (ho : IsOrder order) (root : FPath)
    (fs : FS) (g : DirectedGraph) (h : loadGraph nd root fs = .done (.ok g)) :
    ∃ cs : List Cycle, cs.Nodup ∧ (∀ c ∈ cs, IsCycle g c.vertices) ∧
      ∀ n room, (onStdout ((Query.cycle { all := true } {}).job H nd order root fs n) (.fresh room)).1 <+:
        cs.flatMap fun c => GcCycle.formatCycle c ++ ['\n'] := by
  obtain ⟨cs, s, h1, _, h2, h3, _⟩ := C74_exact nd order ho root fs g h
  refine ⟨cs, h1, fun c hc => ((h2 c).1 hc).1, fun n room => ?_⟩
  refine C109_only_the_answer H nd order root fs (.cycle { all := true } {}) _ ?_ n room
  have := h3.bind (f := fun lines => Prog.ret (lines.flatMap fun l => l ++ ['\n'])) (Returns.ret _)
  rw [List.flatMap_map] at this
  exact this

/-- `C109_cycles_so_far` for a graph with a cycle, and `C109_cycles_as_found` for `--take-n 1`, whatever it prints. -/
example (H : ScoredHeap) (nd : Char → Bool) := C109_cycles_so_far H nd id isOrder_id [['d']] _ _ (load_sample nd [.AddEdge 1 2, .AddEdge 2 1])
example (H : ScoredHeap) (nd : Char → Bool) (t : Text)
    (h : Returns ((Query.cycle { takeN := some ['1'] } {}).text H nd id [['d']] (sampleFS (Format.Gcmd.commandsText [.AddEdge 1 2, .AddEdge 2 1]))) t) :=
  C109_cycles_as_found H nd id [['d']] _ {} ['1'] 1 (by decide) t h

/-- gc-csp for a vertex that cannot be reached, on a graph with a cycle: its search never ends, its first line arrives. -/
example (nd : Char → Bool) (H : ScoredHeap) (n : Nat) : "Constraint that will be applied to search are: \n".toList <+:
    (onStdout ((Query.csp ['1'] ['3'] {}).job H nd id [['d']]
      (sampleFS (Format.Gcmd.commandsText [.AddEdge 1 2, .AddEdge 2 1, .AddVertex 3])) n) (.fresh none)).1 :=
  C109_constraints_first H nd id _ _ _ (load_sample nd _) ['1'] ['3'] 1 3 (parseVertexId_iff.1 (by decide)) (parseVertexId_iff.1 (by decide))
    {} n none

/-- gc-topo-sort on a pipe that takes 21 characters: `Topological order: 3 ` arrives and the program panics. -/
example (nd : Char → Bool) :
    onStdout ((Query.topoSort).job exHeap nd id [['d']]
      (sampleFS "AddEdge 7 12\nAddEdge 3 7\nAddVertex 40\n".toList) 9) (.fresh (some 21)) = ("Topological order: 3 ".toList, .panicked) ∧
    onStdout ((Query.topoSort).job exHeap nd id [['d']]
      (sampleFS "AddEdge 7 12\nAddEdge 3 7\nAddVertex 40\n".toList) 9) (.fresh none) = ("Topological order: 3 40 7 12 \n".toList, .done ()) := by
  have h : loadedGraph nd id [['d']] (sampleFS "AddEdge 7 12\nAddEdge 3 7\nAddVertex 40\n".toList) 9 =
      .done (GraphCommand.applyCommands [.AddEdge 7 12, .AddEdge 3 7, .AddVertex 40] .new) := by
    unfold loadedGraph
    rw [show loadGraph nd [['d']] (sampleFS "AddEdge 7 12\nAddEdge 3 7\nAddVertex 40\n".toList) = _ from
      load_sample nd [.AddEdge 7 12, .AddEdge 3 7, .AddVertex 40]]
    rfl
  have e : (Query.topoSort).job exHeap nd id [['d']] (sampleFS "AddEdge 7 12\nAddEdge 3 7\nAddVertex 40\n".toList) 9 =
      topoAnswer (some [3, 40, 7, 12]) 9 := by
    unfold Query.job gcTopoSort
    dsimp only
    rw [bind_done (ps := []) (a := GraphCommand.applyCommands [.AddEdge 7 12, .AddEdge 3 7, .AddVertex 40] .new) (by unfold lift; rw [h])]
    rw [bind_done (ps := []) (a := some [3, 40, 7, 12]) (by
      unfold lift
      rw [show TopoSort.topologicalSort (GraphCommand.applyCommands [.AddEdge 7 12, .AddEdge 3 7, .AddVertex 40] .new) 9 =
        .done (some [3, 40, 7, 12]) by decide])]
    simp
  rw [e]
  constructor <;> decide +kernel

end Stream
end GC
