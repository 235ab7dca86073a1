/-
Proofs about gc-build with queries running at the same time.
-/
import Verif.Proofs.OneWriter
import Verif.Proofs.GraphCommands
namespace GC
namespace Concurrent
open Store Text Format

/-! ### Where gc-build can be interrupted -/

/-- The pieces of text `save` hands to its buffer for a command. -/
def cmdPieces : GraphCommand → List Text
  | .AddVertex v => [Gcmd.kwAddVertex, showId v, ['\n']]
  | .AddEdge a b => [Gcmd.kwAddEdge, showId a, [' '], showId b, ['\n']]
  | _ => []

/-- The command adds something. -/
def IsAdd : GraphCommand → Prop
  | .AddVertex _ => True
  | .AddEdge _ _ => True
  | _ => False

theorem isAdd_asCommands (g : DirectedGraph) : ∀ c ∈ GraphCommand.asCommands g, IsAdd c := by
  rw [asCommands_eq]
  intro c hc
  rcases List.mem_append.1 hc with hc | hc <;> obtain ⟨x, _, rfl⟩ := List.mem_map.1 hc <;> trivial

theorem saveWrites_eq (g : DirectedGraph) : saveWrites g = bufferedWrites ((GraphCommand.asCommands g).flatMap cmdPieces) := by
  unfold saveWrites
  rw [asCommands_eq, List.flatMap_append, List.flatMap_map, List.flatMap_map]
  rfl

theorem cmdPieces_flatten {c : GraphCommand} (h : IsAdd c) : (cmdPieces c).flatten = Gcmd.commandIntoLine c ++ ['\n'] := by
  cases c <;> first | exact h.elim | simp [cmdPieces, Gcmd.commandIntoLine]

/-- A text that stops within a command that then cannot be parsed. -/
inductive BrokenText (nd : Char → Bool) (cs : List GraphCommand) : Text → Prop where
  | mk {n : Nat} {c : GraphCommand} {t : Text} : cs[n]? = some c → t ≠ [] → t <+: Gcmd.commandIntoLine c → (∀ caps, ¬ GcmdRegex nd t caps) →
      BrokenText nd cs (Gcmd.commandsText (cs.take n) ++ t)

theorem BrokenText.cons {nd : Char → Bool} {cs : List GraphCommand} {t : Text} (h : BrokenText nd cs t) (c : GraphCommand) :
    BrokenText nd (c :: cs) (Gcmd.commandIntoLine c ++ ['\n'] ++ t) := by
  cases h with
  | @mk n d t h1 h2 h3 h4 =>
    rw [← List.append_assoc, ← commandsText_cons, ← List.take_succ_cons]
    exact .mk (by simpa using h1) h2 h3 h4

theorem cmdPieces_take (nd : Char → Bool) {c : GraphCommand} (h : IsAdd c) {m : Nat} (hm : m < (cmdPieces c).length) (cs : List GraphCommand) :
    (∃ n, CutText (c :: cs) n ((cmdPieces c).take m).flatten) ∨ BrokenText nd (c :: cs) ((cmdPieces c).take m).flatten := by
  have hbroken : ∀ t : Text, t ≠ [] → t <+: Gcmd.commandIntoLine c → (∀ caps, ¬ GcmdRegex nd t caps) →
      BrokenText nd (c :: cs) t := by
    intro t h1 h2 h3
    have := BrokenText.mk (nd := nd) (cs := c :: cs) (n := 0) rfl h1 h2 h3
    simpa [Gcmd.commandsText] using this
  have hnil : CutText (c :: cs) 0 [] := by simpa [Gcmd.commandsText] using CutText.whole (cs := c :: cs) (n := 0) (Nat.zero_le _)
  have hopen : CutText (c :: cs) 1 (Gcmd.commandIntoLine c) := by
    have := CutText.open (cs := c :: cs) (n := 0) (c := c) rfl
    simpa [Gcmd.commandsText] using this
  cases c with
  | RemoveVertex v => cases h
  | RemoveEdge a b => cases h
  | AddVertex v =>
    simp only [cmdPieces, List.length_cons, List.length_nil] at hm
    match m, hm with
    | 0, _ => exact .inl ⟨0, hnil⟩
    | 1, _ =>
      right
      have e : ((cmdPieces (.AddVertex v)).take 1).flatten = Gcmd.kwAddVertex := by simp [cmdPieces]
      rw [e]
      exact hbroken _ (by decide) (List.prefix_append _ _) (no_regex_keyword_prefix (by simp [allKeywords]) (List.prefix_refl _))
    | 2, _ =>
      have e : ((cmdPieces (.AddVertex v)).take 2).flatten = Gcmd.commandIntoLine (.AddVertex v) := by
        simp [cmdPieces, Gcmd.commandIntoLine]
      rw [e]
      exact .inl ⟨1, hopen⟩
  | AddEdge a b =>
    simp only [cmdPieces, List.length_cons, List.length_nil] at hm
    have hpiece : ∀ t : Text, t ≠ [] → t <+: Gcmd.kwAddEdge ++ showId a ++ [' '] → BrokenText nd (.AddEdge a b :: cs) t := fun t h1 h2 =>
      hbroken t h1 (h2.trans (List.prefix_append _ _)) (no_regex_edge_piece nd (.inl rfl) h2)
    match m, hm with
    | 0, _ => exact .inl ⟨0, hnil⟩
    | 1, _ =>
      right
      have e : ((cmdPieces (.AddEdge a b)).take 1).flatten = Gcmd.kwAddEdge := by simp [cmdPieces]
      rw [e]
      exact hpiece _ (by decide) (by rw [List.append_assoc]; exact List.prefix_append _ _)
    | 2, _ =>
      right
      have e : ((cmdPieces (.AddEdge a b)).take 2).flatten = Gcmd.kwAddEdge ++ showId a := by simp [cmdPieces]
      rw [e]
      exact hpiece _ (by simp [Gcmd.kwAddEdge]) (List.prefix_append _ _)
    | 3, _ =>
      right
      have e : ((cmdPieces (.AddEdge a b)).take 3).flatten = Gcmd.kwAddEdge ++ showId a ++ [' '] := by simp [cmdPieces]
      rw [e]
      exact hpiece _ (by simp) (List.prefix_refl _)
    | 4, _ =>
      have e : ((cmdPieces (.AddEdge a b)).take 4).flatten = Gcmd.commandIntoLine (.AddEdge a b) := by
        simp [cmdPieces, Gcmd.commandIntoLine]
      rw [e]
      exact .inl ⟨1, hopen⟩

theorem cutText_cmdPieces (nd : Char → Bool) {cs : List GraphCommand} (h : ∀ c ∈ cs, IsAdd c) (j : Nat) :
    (∃ n, CutText cs n ((cs.flatMap cmdPieces).take j).flatten) ∨ BrokenText nd cs ((cs.flatMap cmdPieces).take j).flatten := by
  induction cs generalizing j with
  | nil => exact .inl ⟨0, by simpa [Gcmd.commandsText] using CutText.whole (cs := []) (n := 0) (Nat.le_refl _)⟩
  | cons c cs ih =>
    have hc := h c (by simp)
    rw [List.flatMap_cons]
    by_cases hj : j < (cmdPieces c).length
    · rw [List.take_append_of_le_length (by omega)]
      exact cmdPieces_take nd hc hj cs
    · obtain ⟨i, rfl⟩ : ∃ i, j = (cmdPieces c).length + i := ⟨j - (cmdPieces c).length, by omega⟩
      rw [List.take_length_add_append, List.flatten_append, cmdPieces_flatten hc]
      rcases ih (fun d hd => h d (by simp [hd])) i with ⟨n, h1⟩ | h1
      · exact .inl ⟨n + 1, h1.cons c⟩
      · exact .inr (h1.cons c)

theorem cutText_saveWrites (nd : Char → Bool) (g : DirectedGraph) {done rest : List Text} (h : done ++ rest = saveWrites g) :
    (∃ n, CutText (GraphCommand.asCommands g) n done.flatten) ∨ BrokenText nd (GraphCommand.asCommands g) done.flatten := by
  obtain ⟨j, _, e⟩ := cuts_bufferedWrites ((GraphCommand.asCommands g).flatMap cmdPieces) done.length
  rw [← saveWrites_eq, ← h, List.take_left] at e
  rw [e]
  exact cutText_cmdPieces nd (isAdd_asCommands g) j

theorem BrokenText.load {nd : Char → Bool} {cs : List GraphCommand} {t : Text} (h : BrokenText nd cs t) :
    ∃ e, loadLines nd (lines t) = .done (.error (.parse e)) := by
  cases h with
  | @mk n c t h1 h2 h3 h4 =>
    have hl : lines t = [t] := by
      rw [lines_no_newline t fun x hx => (plain_commandIntoLine c).1 x (h3.subset hx), if_neg (by simpa using h2)]
    rw [lines_append (terminated_commandsText _), lines_commandsText, hl]
    unfold loadLines
    rw [readLoop_append (readsAs_commandLines nd _), readLoop_active (active_piece h3 h2), gcmd_parseLine_error.2 ⟨rfl, h4⟩]
    exact ⟨_, rfl⟩

/-- Additions only make a graph larger. -/
theorem run_isAdd {cs : List GraphCommand} (h : ∀ c ∈ cs, IsAdd c) (G : SetGraph) :
    (∀ v, G.V v → (G.run cs).V v) ∧ (∀ e, G.E e → (G.run cs).E e) := by
  unfold SetGraph.run
  induction cs generalizing G with
  | nil => exact ⟨fun _ h => h, fun _ h => h⟩
  | cons c cs ih =>
    rw [List.foldl_cons]
    have h1 := ih (fun d hd => h d (by simp [hd])) (G.step c)
    have hc := h c (by simp)
    have h2 : (∀ v, G.V v → (G.step c).V v) ∧ (∀ e, G.E e → (G.step c).E e) := by
      cases c <;> first | exact hc.elim | exact ⟨fun _ h => .inl h, fun _ h => h⟩ | exact ⟨fun _ h => .inl h, fun _ h => .inl h⟩
    exact ⟨fun v hv => h1.1 v (h2.1 v hv), fun e he => h1.2 e (h2.2 e he)⟩

/-- The first commands of a saved graph give a part of it. -/
theorem asCommands_take_sub {g : DirectedGraph} (hw : WF g) (n : Nat) :
    (∀ v, (GraphCommand.applyCommands ((GraphCommand.asCommands g).take n) .new).containsVertex v = true → g.containsVertex v = true) ∧
    (∀ e, (GraphCommand.applyCommands ((GraphCommand.asCommands g).take n) .new).containsEdge e = true → g.containsEdge e = true) := by
  have e1 := toSet_applyCommands WF.new ((GraphCommand.asCommands g).take n)
  rw [toSet_new] at e1
  have e2 := run_asCommands g hw
  have h := run_isAdd (cs := (GraphCommand.asCommands g).drop n) (fun c hc => isAdd_asCommands g c (List.mem_of_mem_drop hc))
    (SetGraph.empty.run ((GraphCommand.asCommands g).take n))
  rw [← run_append, List.take_append_drop, e2, ← e1] at h
  exact h

/-! ### Readers before and after -/

/-- Where a reader is while the content does not change. -/
inductive SteadyOk (nd : Char → Bool) (c : Text) : Pc → Prop where
  | start : SteadyOk nd c .start
  | reading {r} : ReadsPrefix r c → SteadyOk nd c (.reading r)
  | answered : SteadyOk nd c (.answered (loadLines nd (lines c)))

theorem SteadyOk.step {nd : Char → Bool} {root : FPath} {fs : FS} {c : Text} {pc : Pc} (hc : Content root fs c) (ht : NewlineTerminated c)
    (h : SteadyOk nd c pc) : SteadyOk nd c (stepQuery nd root pc fs).2 := by
  cases h with
  | start =>
    simp only [stepQuery, stepOpen_content hc]
    exact .reading (.new _)
  | reading h =>
    rcases stepRead_terminated (nd := nd) hc ht h with ⟨r', e, h', _⟩ | e
    · simp only [stepQuery, e]
      exact .reading h'
    · simp only [stepQuery, e]
      exact .answered
  | answered => exact .answered

/-- One gc-build (process `b`) and queries. `late` are the queries that begin after gc-build returned. -/
structure BuildInv (nd : Char → Bool) (root : FPath) (jobs : List Job) (b : Nat) (g : DirectedGraph) (fs0 : FS) (c : Text)
    (late : Nat → Prop) (s : Sys) : Prop where
  build : BuildOk root g fs0 c (s.pc b) s.fs
  early : NotWritten (s.pc b) → ∀ i : Nat, jobs[i]? = some .query → SteadyOk nd c (s.pc i)
  late : ∀ i : Nat, jobs[i]? = some .query → late i → Finished (s.pc b) ∧ SteadyOk nd (Gcmd.save g) (s.pc i)

theorem BuildOk.early {root : FPath} {g : DirectedGraph} {fs0 fs : FS} {c : Text} {pc : Pc} (h : BuildOk root g fs0 c pc fs)
    (he : NotWritten pc) : fs = fs0 := by
  cases h with
  | rewriting => rcases he with (he | ⟨_, he⟩) | ⟨_, he⟩ <;> cases he
  | finished => rcases he with (he | ⟨_, he⟩) | ⟨_, he⟩ <;> cases he
  | _ => rfl

theorem stepBuild_notWritten {nd : Char → Bool} {order : DirectedGraph → DirectedGraph} {root : FPath} {pc : Pc} {fs : FS}
    (h : NotWritten (stepBuild nd order root pc fs).2) : NotWritten pc := by
  cases pc with
  | start => exact .inl (.inl rfl)
  | reading r => exact .inl (.inr ⟨r, rfl⟩)
  | loaded g => exact .inr ⟨g, rfl⟩
  | rewriting o rest =>
    cases rest <;> rcases h with (h | ⟨_, h⟩) | ⟨_, h⟩ <;> cases h
  | _ => rcases h with (h | ⟨_, h⟩) | ⟨_, h⟩ <;> cases h

theorem terminated_save (g : DirectedGraph) : NewlineTerminated (Gcmd.save g) := by
  rw [gcmd_save_eq]
  exact terminated_commandsText _

theorem BuildInv.step {nd : Char → Bool} {order : Nat → DirectedGraph → DirectedGraph} {root : FPath} {jobs : List Job} {b : Nat}
    {g : DirectedGraph} {fs0 : FS} {c : Text} {late : Nat → Prop} (hb : jobs[b]? = some .build)
    (hj : ∀ (j : Nat) (job : Job), jobs[j]? = some job → j = b ∨ job = .query) (hc : Content root fs0 c) (ht : NewlineTerminated c)
    (hg : loadGraph nd root fs0 = .done (.ok g)) {s : Sys} (h : BuildInv nd root jobs b (order b g) fs0 c late s) (i : Nat) :
    BuildInv nd root jobs b (order b g) fs0 c late (Concurrent.step nd order root jobs s i) := by
  cases e : jobs[i]? with
  | none => rw [step_none e]; exact h
  | some job =>
    have hpc : ∀ j, j ≠ i → (Concurrent.step nd order root jobs s i).pc j = s.pc j := by
      intro j hj
      unfold Concurrent.step
      rw [e]
      simp [hj]
    by_cases hib : i = b
    · subst hib
      rw [hb] at e
      cases e
      have h1 : (Concurrent.step nd order root jobs s i).pc i = (stepBuild nd (order i) root (s.pc i) s.fs).2 := by
        unfold Concurrent.step
        rw [hb]
        simp [stepJob]
      have h2 : (Concurrent.step nd order root jobs s i).fs = (stepBuild nd (order i) root (s.pc i) s.fs).1 := by
        unfold Concurrent.step
        rw [hb]
        rfl
      refine ⟨?_, ?_, ?_⟩
      · rw [h1, h2]
        exact h.build.step hc ht hg
      · intro he j hjq
        rw [h1] at he
        rw [hpc j (by rintro rfl; rw [hb] at hjq; cases hjq)]
        exact h.early (stepBuild_notWritten he) j hjq
      · intro j hjq hl
        rw [hpc j (by rintro rfl; rw [hb] at hjq; cases hjq), h1]
        obtain ⟨⟨ok, hf⟩, h3⟩ := h.late j hjq hl
        rw [hf]
        exact ⟨⟨ok, rfl⟩, h3⟩
    · have hq : job = .query := (hj i job e).resolve_left hib
      subst hq
      have hfs : (Concurrent.step nd order root jobs s i).fs = s.fs := by
        unfold Concurrent.step
        rw [e]
        exact stepQuery_fs nd root _ _
      have hp : (Concurrent.step nd order root jobs s i).pc i = (stepQuery nd root (s.pc i) s.fs).2 := by
        unfold Concurrent.step
        rw [e]
        simp [stepJob]
      refine ⟨by rw [hfs, hpc b (Ne.symm hib)]; exact h.build, ?_, ?_⟩
      · intro he j hjq
        rw [hpc b (Ne.symm hib)] at he
        by_cases hji : j = i
        · subst hji
          rw [hp]
          exact (h.early he j hjq).step (by rw [h.build.early he]; exact hc) ht
        · rw [hpc j hji]; exact h.early he j hjq
      · intro j hjq hl
        obtain ⟨hf, h3⟩ := h.late j hjq hl
        rw [hpc b (Ne.symm hib)]
        refine ⟨hf, ?_⟩
        by_cases hji : j = i
        · subst hji
          rw [hp]
          have hcont : Content root s.fs (Gcmd.save (order b g)) := by
            have := h.build
            obtain ⟨ok, hf⟩ := hf
            rw [hf] at this
            generalize s.fs = fs' at this
            cases this with
            | finished => exact FS.set_self _ _ _
          exact h3.step hcont (terminated_save _)
        · rw [hpc j hji]; exact h3

theorem BuildInv.run {nd : Char → Bool} {order : Nat → DirectedGraph → DirectedGraph} {root : FPath} {jobs : List Job} {b : Nat}
    {g : DirectedGraph} {fs0 : FS} {c : Text} {late : Nat → Prop} (hb : jobs[b]? = some .build)
    (hj : ∀ (j : Nat) (job : Job), jobs[j]? = some job → j = b ∨ job = .query) (hc : Content root fs0 c) (ht : NewlineTerminated c)
    (hg : loadGraph nd root fs0 = .done (.ok g)) (sched : List Nat) {s : Sys} (h : BuildInv nd root jobs b (order b g) fs0 c late s) :
    BuildInv nd root jobs b (order b g) fs0 c late (sched.foldl (Concurrent.step nd order root jobs) s) := by
  induction sched generalizing s with
  | nil => exact h
  | cons i sched ih =>
    rw [List.foldl_cons]
    exact ih (h.step hb hj hc ht hg i)

theorem buildInv_init {nd : Char → Bool} {root : FPath} {jobs : List Job} {b : Nat} {g : DirectedGraph} {fs : FS} {c : Text} :
    BuildInv nd root jobs b g fs c (fun _ => False) ⟨fs, fun _ => .start⟩ :=
  ⟨.start, fun _ _ _ => .start, fun _ _ h => h.elim⟩

/-! ### gc-build alone does what `gcBuild` does -/

/-- Iterated steps of one gc-build. -/
def iterBuild (nd : Char → Bool) (order : DirectedGraph → DirectedGraph) (root : FPath) : Nat → Pc → FS → FS × Pc
  | 0, pc, fs => (fs, pc)
  | n + 1, pc, fs => iterBuild nd order root n (stepBuild nd order root pc fs).2 (stepBuild nd order root pc fs).1

theorem run_build_alone (nd : Char → Bool) (order : Nat → DirectedGraph → DirectedGraph) (root : FPath) (n : Nat) (s : Sys) :
    (((List.replicate n 0).foldl (step nd order root [.build]) s).fs, ((List.replicate n 0).foldl (step nd order root [.build]) s).pc 0) =
      iterBuild nd (order 0) root n (s.pc 0) s.fs := by
  induction n generalizing s with
  | zero => rfl
  | succ n ih =>
    rw [List.replicate_succ, List.foldl_cons, ih]
    rfl

theorem iterBuild_finished (nd : Char → Bool) (order : DirectedGraph → DirectedGraph) (root : FPath) (ok : Bool) (n : Nat) (fs : FS) :
    iterBuild nd order root n (.finished ok) fs = (fs, .finished ok) := by
  induction n generalizing fs with
  | zero => rfl
  | succ n ih => exact ih fs

/-- Where gc-build is when its load returned. -/
def afterLoad (order : DirectedGraph → DirectedGraph) : Run (Except LoadError DirectedGraph) → Pc
  | .done (.ok g) => .loaded (order g)
  | _ => .finished false

theorem iterBuild_load {nd : Char → Bool} (order : DirectedGraph → DirectedGraph) {root : FPath} {fs : FS} {res} (m : Nat) {pc : Pc}
    (hpc : pc = .start ∨ ∃ r, pc = .reading r) (h : iterQuery nd root fs m pc = .answered res) :
    ∃ k, ∀ n, iterBuild nd order root (n + k) pc fs = iterBuild nd order root n (afterLoad order res) fs := by
  induction m generalizing pc with
  | zero =>
    rcases hpc with rfl | ⟨r, rfl⟩ <;> cases h
  | succ m ih =>
    change iterQuery nd root fs m (stepQuery nd root pc fs).2 = _ at h
    have key : ∀ l : LoadStep, (stepQuery nd root pc fs).2 = (match l with | .more r => .reading r | .returned res => .answered res) →
        stepBuild nd order root pc fs = (match l with | .more r => (fs, .reading r) | .returned res => (fs, afterLoad order res)) →
        ∃ k, ∀ n, iterBuild nd order root (n + k) pc fs = iterBuild nd order root n (afterLoad order res) fs := by
      intro l h1 h2
      rw [h1] at h
      cases l with
      | more r =>
        obtain ⟨k, hk⟩ := ih (.inr ⟨r, rfl⟩) h
        refine ⟨k + 1, fun n => ?_⟩
        show iterBuild nd order root (n + k) (stepBuild nd order root pc fs).2 (stepBuild nd order root pc fs).1 = _
        rw [h2]
        exact hk n
      | returned res' =>
        change iterQuery nd root fs m (.answered res') = _ at h
        rw [iterQuery_answered] at h
        cases h
        refine ⟨1, fun n => ?_⟩
        show iterBuild nd order root n (stepBuild nd order root pc fs).2 (stepBuild nd order root pc fs).1 = _
        rw [h2]
    rcases hpc with rfl | ⟨r, rfl⟩
    · refine key (stepOpen root fs) ?_ ?_
      · simp only [stepQuery]
        cases stepOpen root fs <;> rfl
      · simp only [stepBuild]
        rcases stepOpen root fs with r | (_ | _ | (_ | _)) <;> rfl
    · refine key (stepRead nd root r fs) ?_ ?_
      · simp only [stepQuery]
        cases stepRead nd root r fs <;> rfl
      · simp only [stepBuild]
        rcases stepRead nd root r fs with r | (_ | _ | (_ | _)) <;> rfl

theorem iterBuild_rewriting (nd : Char → Bool) (order : DirectedGraph → DirectedGraph) (root : FPath) (ts : List Text) (n : Nat) (fs : FS)
    (done : Text) (h : fs (commandPath root) = some (.file done)) :
    iterBuild nd order root (n + 1 + ts.length) (.rewriting done.length ts) fs =
      (appendText (commandPath root) ts.flatten fs, .finished true) := by
  rw [← foldl_appendText]
  induction ts generalizing fs done with
  | nil => exact iterBuild_finished _ _ _ _ _ _
  | cons t ts ih =>
    rw [List.length_cons, ← Nat.add_assoc, List.foldl_cons]
    have e : writeAt (commandPath root) done.length t fs = appendText (commandPath root) t fs := by
      unfold writeAt appendText
      rw [h]
      simp only
      rw [List.take_length, Nat.sub_self, List.drop_eq_nil_of_le (by omega)]
      simp
    show iterBuild nd order root (n + 1 + ts.length) (.rewriting (done.length + t.length) ts) (writeAt (commandPath root) done.length t fs) = _
    rw [e, ← List.length_append]
    refine ih _ _ ?_
    unfold appendText
    rw [h]
    exact FS.set_self _ _ _

theorem iterBuild_loaded (nd : Char → Bool) (order : DirectedGraph → DirectedGraph) (root : FPath) (g : DirectedGraph) (fs : FS) :
    ∃ k, ∀ n, k ≤ n → iterBuild nd order root n (.loaded g) fs =
      ((saveGraphAsCommands root g fs).1, .finished (match (saveGraphAsCommands root g fs).2 with | .ok () => true | .error _ => false)) := by
  refine ⟨(saveWrites g).length + 2, fun n hn => ?_⟩
  obtain ⟨m, rfl⟩ : ∃ m, n = m + 1 + (saveWrites g).length + 1 := ⟨n - ((saveWrites g).length + 2), by omega⟩
  show iterBuild nd order root (m + 1 + (saveWrites g).length) (stepBuild nd order root (.loaded g) fs).2
    (stepBuild nd order root (.loaded g) fs).1 = _
  simp only [stepBuild, saveGraphAsCommands]
  rcases e : createTruncate (commandPath root) fs with ⟨fs1, _ | _⟩
  · simp only
    exact iterBuild_finished _ _ _ _ _ _
  · simp only
    have h1 : fs1 (commandPath root) = some (.file []) := by
      unfold createTruncate at e
      split at e
      · cases e; exact FS.set_self _ _ _
      · cases e
      · split at e
        · cases e; exact FS.set_self _ _ _
        · cases e
        · cases e
    have := iterBuild_rewriting nd order root (saveWrites g) m fs1 [] h1
    rw [saveWrites_flatten] at this
    exact this

end Concurrent
end GC
