/-
Proofs about concurrent processes.
-/
import Verif.Spec.Concurrent
import Verif.Proofs.Store
import Verif.Proofs.Crash
namespace GC
namespace Concurrent
open Store Text Format

/-! ### The buffer -/

theorem flush_flatten (w : BufWriter) : w.flush.writes.flatten ++ w.flush.buffer = w.writes.flatten ++ w.buffer := by
  unfold BufWriter.flush
  split
  · rfl
  · simp

theorem flush_buffer (w : BufWriter) : w.flush.buffer = [] := by
  unfold BufWriter.flush
  split
  · assumption
  · rfl

theorem write_flatten (w : BufWriter) (t : Text) :
    (w.write t).writes.flatten ++ (w.write t).buffer = w.writes.flatten ++ w.buffer ++ t := by
  unfold BufWriter.write
  dsimp only
  by_cases h1 : w.buffer.length + t.length > bufCapacity
  · rw [if_pos h1]
    have := flush_flatten w
    have hb := flush_buffer w
    rw [hb, List.append_nil] at this
    by_cases h2 : t.length ≥ bufCapacity
    · rw [if_pos h2]
      simp [this, hb]
    · rw [if_neg h2]
      simp [this, hb]
  · rw [if_neg h1]
    by_cases h2 : t.length ≥ bufCapacity
    · rw [if_pos h2]
      have : w.buffer = [] := by
        rw [← List.length_eq_zero_iff]
        unfold bufCapacity at *
        omega
      simp [this]
    · rw [if_neg h2]
      simp

theorem foldl_write_flatten (ps : List Text) (w : BufWriter) :
    (ps.foldl BufWriter.write w).writes.flatten ++ (ps.foldl BufWriter.write w).buffer = w.writes.flatten ++ w.buffer ++ ps.flatten := by
  induction ps generalizing w with
  | nil => simp
  | cons p ps ih => rw [List.foldl_cons, ih, write_flatten]; simp

theorem bufferedWrites_flatten (ps : List Text) : (bufferedWrites ps).flatten = ps.flatten := by
  unfold bufferedWrites
  have h1 := flush_flatten (ps.foldl BufWriter.write ⟨[], []⟩)
  rw [flush_buffer, List.append_nil, foldl_write_flatten] at h1
  simpa using h1

theorem foldl_write_small (ps : List Text) (ws : List Text) (b : Text) (hlt : ∀ p ∈ ps, p.length < bufCapacity)
    (hsum : b.length + ps.flatten.length ≤ bufCapacity) : ps.foldl BufWriter.write ⟨ws, b⟩ = ⟨ws, b ++ ps.flatten⟩ := by
  induction ps generalizing b with
  | nil => simp
  | cons p ps ih =>
    have hp := hlt p (by simp)
    simp only [List.flatten_cons, List.length_append] at hsum
    have e : BufWriter.write ⟨ws, b⟩ p = ⟨ws, b ++ p⟩ := by
      unfold BufWriter.write
      dsimp only
      rw [if_neg (by omega), if_neg (by omega)]
    rw [List.foldl_cons, e, ih (b ++ p) (fun q hq => hlt q (by simp [hq])) (by simp only [List.length_append]; omega)]
    simp

theorem pieces_flatten (cs : List GraphCommand) :
    (cs.flatMap fun c => [Gcmd.commandIntoLine c, ['\n']]).flatten = Gcmd.commandsText cs := by
  induction cs with
  | nil => rfl
  | cons c cs ih => simp [Gcmd.commandsText] at ih ⊢; exact ih

theorem addWrites_flatten (cs : List GraphCommand) : (addWrites cs).flatten = Gcmd.commandsText cs := by
  unfold addWrites
  rw [bufferedWrites_flatten, pieces_flatten]

theorem length_commandsText_mem {cs : List GraphCommand} {c : GraphCommand} (h : c ∈ cs) :
    (Gcmd.commandIntoLine c).length < (Gcmd.commandsText cs).length := by
  induction cs with
  | nil => cases h
  | cons d cs ih =>
    have e : Gcmd.commandsText (d :: cs) = Gcmd.commandIntoLine d ++ ['\n'] ++ Gcmd.commandsText cs := by simp [Gcmd.commandsText]
    rw [e]
    simp only [List.length_append, List.length_singleton]
    rcases List.mem_cons.1 h with rfl | h
    · omega
    · have := ih h; omega

theorem commandsText_eq_nil {cs : List GraphCommand} : Gcmd.commandsText cs = [] ↔ cs = [] := by
  cases cs with
  | nil => simp [Gcmd.commandsText]
  | cons c cs => simp [Gcmd.commandsText]

/-- A batch that fits into the buffer is written by one call. -/
theorem addWrites_small {cs : List GraphCommand} (h : (Gcmd.commandsText cs).length ≤ bufCapacity) :
    addWrites cs = if cs = [] then [] else [Gcmd.commandsText cs] := by
  unfold addWrites bufferedWrites
  rw [foldl_write_small _ [] [] ?_ (by rw [pieces_flatten]; simpa using h), pieces_flatten]
  · simp only [List.nil_append]
    unfold BufWriter.flush
    dsimp only
    by_cases hc : cs = []
    · rw [if_pos (commandsText_eq_nil.2 hc), if_pos hc]
    · rw [if_neg (fun e => hc (commandsText_eq_nil.1 e)), if_neg hc]
      rfl
  · intro p hp
    rw [List.mem_flatMap] at hp
    obtain ⟨c, hc, hp⟩ := hp
    have := length_commandsText_mem hc
    simp only [List.mem_cons, List.not_mem_nil, or_false] at hp
    rcases hp with rfl | rfl
    · omega
    · simp [bufCapacity]

/-! ### Additions -/

/-- The `write` calls made so far by process `i`. -/
def logOf (i : Nat) (log : List (Nat × Text)) : List Text := (log.filter fun p => p.1 = i).map Prod.snd

theorem logOf_append (i : Nat) (a b : List (Nat × Text)) : logOf i (a ++ b) = logOf i a ++ logOf i b := by simp [logOf]

/-- Where a process is, the writes it made, all its writes. -/
inductive PcOk : Pc → List Text → List Text → Prop where
  | start {w} : PcOk .start [] w
  | dirs {w} : PcOk .dirs [] w
  | locked {w} : PcOk .locked [] w
  | writing {l rest w} : l ++ rest = w → PcOk (.writing rest) l w
  | unlocking {w} : PcOk (.unlocking (.ok ())) w w
  | finished {w ok} : PcOk (.finished ok) w w

theorem PcOk.prefix {pc : Pc} {l w : List Text} (h : PcOk pc l w) : l <+: w := by
  cases h with
  | writing h => exact ⟨_, h⟩
  | unlocking => exact List.prefix_refl _
  | finished => exact List.prefix_refl _
  | _ => exact List.nil_prefix

/-- Invariant of additions. `pre` are writes from before `base` was stored. -/
structure AddInv (root : FPath) (jobs : List Job) (base : Text) (pre log : List (Nat × Text)) (s : Sys) : Prop where
  ready : Ready root s.fs
  content : Content root s.fs (base ++ (log.map Prod.snd).flatten)
  ok : ∀ i cs, jobs[i]? = some (.add cs) → PcOk (s.pc i) (logOf i (pre ++ log)) (addWrites cs)
  known : ∀ p ∈ pre ++ log, ∃ cs, jobs[p.1]? = some (.add cs)

theorem createDirAll_ready {root : FPath} {fs : FS} (h : Ready root fs) : (createDirAll root fs).1 = fs := by
  rw [createDirAll_ok h.lockable.1]
  funext q
  dsimp only
  split
  · rename_i hq
    rw [h.1 q ((isPrefixOf_iff.1 hq).trans (List.prefix_append root _))]
  · rfl

theorem lock_not_prefix (root : FPath) {q : FPath} (h : q <+: rootPath root) : q ≠ lockPath root := by
  rintro rfl
  have := h.eq_of_length (by simp [rootPath, lockPath])
  exact lock_not_under_graph root (this ▸ List.prefix_refl _)

theorem command_not_prefix (root : FPath) {q : FPath} (h : q <+: rootPath root) : q ≠ commandPath root := by
  rintro rfl
  have := h.length_le
  simp [rootPath, commandPath] at this

theorem ready_set_lock {root : FPath} {fs : FS} (h : Ready root fs) {n : Option Node} (hn : n ≠ some .dir) :
    Ready root (fs.set (lockPath root) n) := by
  refine ⟨?_, ?_, ?_⟩
  · intro q hq
    rw [FS.set_other _ _ (lock_not_prefix root hq)]
    exact h.1 q hq
  · unfold FileAt
    rw [FS.set_other _ _ (lock_ne_command root)]
    exact h.2.1
  · rw [FS.set_self]
    exact hn

theorem ready_set_command {root : FPath} {fs : FS} (h : Ready root fs) (t : Text) :
    Ready root (fs.set (commandPath root) (some (.file t))) := by
  refine ⟨?_, ⟨t, FS.set_self _ _ _⟩, ?_⟩
  · intro q hq
    rw [FS.set_other _ _ (command_not_prefix root hq)]
    exact h.1 q hq
  · rw [FS.set_other _ _ (lock_ne_command root).symm]
    exact h.2.2

theorem content_set_lock {root : FPath} {fs : FS} {c : Text} (h : Content root fs c) (n : Option Node) :
    Content root (fs.set (lockPath root) n) c := by
  unfold Content
  rw [FS.set_other _ _ (lock_ne_command root)]
  exact h

/-- What opening the lock file does. -/
theorem openCreate_lock {root : FPath} {fs : FS} (h : Ready root fs) :
    ∃ n, openCreate (lockPath root) fs = (fs.set (lockPath root) n, .ok ()) ∧ ∃ c, n = some (.file c) := by
  have hd : (lockPath root).dropLast = root := by simp [lockPath]
  unfold openCreate
  cases e : fs (lockPath root) with
  | none =>
    refine ⟨some (.file []), ?_, [], rfl⟩
    simp only
    rw [hd, h.1 root (List.prefix_append root _)]
  | some nd =>
    cases nd with
    | dir => exact absurd e h.2.2
    | file c =>
      refine ⟨some (.file c), ?_, c, rfl⟩
      simp only
      congr 1
      funext q
      unfold FS.set
      split
      · rename_i hq; rw [hq, e]
      · rfl

theorem AddInv.step {nd : Char → Bool} {order : Nat → DirectedGraph → DirectedGraph} {root : FPath} {jobs : List Job} {base : Text}
    {pre log : List (Nat × Text)} {s : Sys} (h : AddInv root jobs base pre log s) {i : Nat} {cs : List GraphCommand}
    (hi : jobs[i]? = some (.add cs)) : ∃ log', AddInv root jobs base pre (log ++ log') (step nd order root jobs s i) := by
  have hpc := h.ok i cs hi
  unfold Concurrent.step
  rw [hi]
  simp only [stepJob]
  -- a step that writes nothing
  have quiet : ∀ fs pc, stepAdd root cs (s.pc i) s.fs = (fs, pc) → Ready root fs → Content root fs (base ++ (log.map Prod.snd).flatten) →
      PcOk pc (logOf i (pre ++ log)) (addWrites cs) →
      ∃ log', AddInv root jobs base pre (log ++ log') ⟨(stepAdd root cs (s.pc i) s.fs).1,
        fun j => if j = i then (stepAdd root cs (s.pc i) s.fs).2 else s.pc j⟩ := by
    intro fs pc e h1 h2 h3
    rw [e]
    refine ⟨[], h1, by simpa using h2, ?_, by simpa using h.known⟩
    intro j cs' hj
    simp only [List.append_nil]
    by_cases hji : j = i
    · subst hji
      rw [hi] at hj
      cases hj
      simpa using h3
    · simp only [hji, if_false]
      exact h.ok j cs' hj
  generalize hp : s.pc i = pc at hpc quiet
  generalize hl : logOf i (pre ++ log) = l at hpc quiet
  generalize hw : addWrites cs = w at hpc quiet
  cases hpc with
  | start =>
    have e : stepAdd root cs .start s.fs = ((createDirAll root s.fs).1, .dirs) := rfl
    exact quiet _ _ e (by rw [createDirAll_ready h.ready]; exact h.ready) (by rw [createDirAll_ready h.ready]; exact h.content) .dirs
  | dirs =>
    obtain ⟨n, h1, c, h2⟩ := openCreate_lock h.ready
    have e : stepAdd root cs .dirs s.fs = (s.fs.set (lockPath root) n, .locked) := by
      simp only [stepAdd, h1]
    exact quiet _ _ e (ready_set_lock h.ready (by rw [h2]; simp)) (content_set_lock h.content n) .locked
  | locked =>
    obtain ⟨c, hc⟩ := h.ready.2.1
    have e : stepAdd root cs .locked s.fs = (s.fs, .writing (addWrites cs)) := by
      simp only [stepAdd, openAppend, hc]
    exact quiet _ _ e h.ready h.content (.writing (by simpa using hw))
  | @writing _ rest _ hrest =>
    cases rest with
    | nil =>
      have e : stepAdd root cs (.writing []) s.fs = (s.fs, .unlocking (.ok ())) := rfl
      refine quiet _ _ e h.ready h.content ?_
      rw [← hrest, List.append_nil]
      exact .unlocking
    | cons t rest =>
      have e : stepAdd root cs (.writing (t :: rest)) s.fs = (appendText (commandPath root) t s.fs, .writing rest) := rfl
      rw [e]
      have e2 : appendText (commandPath root) t s.fs =
          s.fs.set (commandPath root) (some (.file (base ++ (log.map Prod.snd).flatten ++ t))) := by
        have := h.content
        unfold Content at this
        unfold appendText
        rw [this]
      rw [e2]
      refine ⟨[(i, t)], ready_set_command h.ready _, ?_, ?_, ?_⟩
      · unfold Content
        dsimp only
        rw [FS.set_self]
        simp
      · intro j cs' hj
        rw [← List.append_assoc, logOf_append]
        by_cases hji : j = i
        · subst hji
          rw [hi] at hj
          cases hj
          rw [hl]
          simp only [if_true]
          have h2 : logOf j [(j, t)] = [t] := by simp [logOf]
          rw [h2, hw]
          exact .writing (by rw [← hrest]; simp)
        · have h2 : logOf j [(i, t)] = [] := by simp [logOf, Ne.symm hji]
          simp only [hji, if_false]
          rw [h2, List.append_nil]
          exact h.ok j cs' hj
      · intro p hp
        rw [← List.append_assoc, List.mem_append] at hp
        rcases hp with hp | hp
        · exact h.known p hp
        · simp only [List.mem_singleton] at hp
          subst hp
          exact ⟨cs, hi⟩
  | unlocking =>
    have : ∃ ok n, stepAdd root cs (.unlocking (.ok ())) s.fs = (s.fs.set (lockPath root) n, .finished ok) ∧ n ≠ some .dir := by
      simp only [stepAdd, unlock, removeFile]
      cases e : s.fs (lockPath root) with
      | none =>
        refine ⟨false, none, ?_, by simp⟩
        simp only [Prod.mk.injEq, and_true]
        funext q
        unfold FS.set
        split
        · rename_i hq; rw [hq, e]
        · rfl
      | some nd =>
        cases nd with
        | dir => exact absurd e h.ready.2.2
        | file c => exact ⟨true, none, rfl, by simp⟩
    obtain ⟨ok, n, e, hn⟩ := this
    exact quiet _ _ e (ready_set_lock h.ready hn) (content_set_lock h.content n) .finished
  | @finished _ ok =>
    have e : stepAdd root cs (.finished ok) s.fs = (s.fs, .finished ok) := rfl
    exact quiet _ _ e h.ready h.content .finished

theorem step_none {nd : Char → Bool} {order : Nat → DirectedGraph → DirectedGraph} {root : FPath} {jobs : List Job} {s : Sys} {i : Nat}
    (hi : jobs[i]? = none) : step nd order root jobs s i = s := by
  unfold Concurrent.step
  rw [hi]

/-- Steps of a process that is not an addition and leave the files alone. -/
theorem AddInv.quiet {nd : Char → Bool} {order : Nat → DirectedGraph → DirectedGraph} {root : FPath} {jobs : List Job} {base : Text}
    {pre log : List (Nat × Text)} {s : Sys} (h : AddInv root jobs base pre log s) {i : Nat} {job : Job} (hi : jobs[i]? = some job)
    (hn : ∀ cs, job ≠ .add cs) (hq : (stepJob nd (order i) root job (s.pc i) s.fs).1 = s.fs) :
    AddInv root jobs base pre log (Concurrent.step nd order root jobs s i) := by
  unfold Concurrent.step
  rw [hi]
  dsimp only
  rw [hq]
  refine ⟨h.ready, h.content, fun j cs hj => ?_, h.known⟩
  have : j ≠ i := by
    rintro rfl
    rw [hi] at hj
    cases hj
    exact hn cs rfl
  simp only [this, if_false]
  exact h.ok j cs hj

theorem stepQuery_fs (nd : Char → Bool) (root : FPath) (pc : Pc) (fs : FS) : (stepQuery nd root pc fs).1 = fs := by
  unfold stepQuery
  cases pc with
  | start => dsimp only; split <;> rfl
  | reading r => dsimp only; split <;> rfl
  | _ => rfl

theorem createDirAll_root_ready {root : FPath} {fs : FS} (h : Ready root fs) : (createDirAll (rootPath root) fs).1 = fs := by
  have : ∀ q, q <+: rootPath root → fs q = some .dir := h.1
  unfold createDirAll
  split
  · rfl
  · funext q
    dsimp only
    split
    · rename_i hq
      rw [this q (isPrefixOf_iff.1 hq)]
    · rfl

/-- gc-init leaves an initialised graph alone. -/
theorem stepInit_fs {root : FPath} {fs : FS} (h : Ready root fs) (pc : Pc) : (stepInit root pc fs).1 = fs := by
  obtain ⟨c, hc⟩ := h.2.1
  unfold stepInit
  split
  · exact createDirAll_root_ready h
  · simp only [openCreate, hc]
  · rfl

theorem AddInv.run {nd : Char → Bool} {order : Nat → DirectedGraph → DirectedGraph} {root : FPath} {jobs : List Job} {base : Text}
    {pre : List (Nat × Text)} (sched : List Nat) (hs : ∀ i ∈ sched, jobs[i]? ≠ some .build) {log : List (Nat × Text)} {s : Sys}
    (h : AddInv root jobs base pre log s) :
    ∃ log', AddInv root jobs base pre (log ++ log') (sched.foldl (Concurrent.step nd order root jobs) s) := by
  induction sched generalizing log s with
  | nil => exact ⟨[], by simpa using h⟩
  | cons i sched ih =>
    rw [List.foldl_cons]
    have hi := hs i (by simp)
    have hs' : ∀ j ∈ sched, jobs[j]? ≠ some .build := fun j hj => hs j (by simp [hj])
    cases e : jobs[i]? with
    | none =>
      rw [step_none e]
      exact ih hs' h
    | some job =>
      cases job with
      | build => exact absurd e hi
      | query => exact ih hs' (h.quiet e (fun _ => by simp) (stepQuery_fs nd root _ _))
      | init => exact ih hs' (h.quiet e (fun _ => by simp) (stepInit_fs h.ready _))
      | add cs =>
        obtain ⟨l1, h1⟩ := h.step (nd := nd) (order := order) e
        obtain ⟨l2, h2⟩ := ih hs' h1
        exact ⟨l1 ++ l2, by rw [← List.append_assoc]; exact h2⟩

theorem addInv_init {root : FPath} {jobs : List Job} {base : Text} {fs : FS} (hr : Ready root fs) (hc : Content root fs base) :
    AddInv root jobs base [] [] ⟨fs, fun _ => .start⟩ :=
  ⟨hr, by simpa using hc, fun _ _ _ => .start, by simp⟩

/-- The order in which small batches were written. -/
theorem small_order {jobs : List Job} {log : List (Nat × Text)} {pc : Nat → Pc}
    (ok : ∀ i cs, jobs[i]? = some (.add cs) → PcOk (pc i) (logOf i log) (addWrites cs))
    (known : ∀ p ∈ log, ∃ cs, jobs[p.1]? = some (.add cs))
    (hsmall : ∀ (i : Nat) (cs : List GraphCommand), jobs[i]? = some (.add cs) → (Gcmd.commandsText cs).length ≤ bufCapacity) :
    (log.map Prod.fst).Nodup ∧
    (∀ p ∈ log, ∃ cs, jobs[p.1]? = some (.add cs) ∧ p.2 = Gcmd.commandsText cs) ∧
    (∀ (i : Nat) (cs : List GraphCommand), jobs[i]? = some (.add cs) → cs ≠ [] → Finished (pc i) → i ∈ log.map Prod.fst) := by
  have hpre : ∀ i cs, jobs[i]? = some (.add cs) → logOf i log <+: [Gcmd.commandsText cs] := by
    intro i cs hi
    have := (ok i cs hi).prefix
    rw [addWrites_small (hsmall i cs hi)] at this
    split at this
    · rw [List.prefix_nil.1 this]; exact List.nil_prefix
    · exact this
  refine ⟨?_, ?_, ?_⟩
  · rw [List.nodup_iff_count_le_one]
    intro i
    by_cases hm : i ∈ log.map Prod.fst
    · obtain ⟨p, hp, rfl⟩ := List.mem_map.1 hm
      obtain ⟨cs, hcs⟩ := known p hp
      have := (hpre _ cs hcs).length_le
      unfold logOf at this
      rw [List.length_map] at this
      rw [List.count_eq_countP, List.countP_map, List.countP_eq_length_filter]
      have e : (fun x => x == p.1) ∘ Prod.fst = fun q : Nat × Text => decide (q.1 = p.1) := by
        funext q
        simp only [Function.comp]
        by_cases hq : q.1 = p.1 <;> simp [hq]
      rw [e]
      simpa using this
    · rw [List.count_eq_zero_of_not_mem hm]; omega
  · intro p hp
    obtain ⟨cs, hcs⟩ := known p hp
    refine ⟨cs, hcs, ?_⟩
    have hmem : p.2 ∈ logOf p.1 log := by
      unfold logOf
      rw [List.mem_map]
      exact ⟨p, by simp [hp], rfl⟩
    have := (hpre _ cs hcs).subset hmem
    simpa using this
  · rintro i cs hi hne ⟨b, hb⟩
    have h := ok i cs hi
    rw [hb] at h
    have e : logOf i log = addWrites cs := by
      generalize logOf i log = l at h
      generalize addWrites cs = w at h
      cases h
      rfl
    rw [addWrites_small (hsmall i cs hi), if_neg hne] at e
    have hmem : Gcmd.commandsText cs ∈ logOf i log := by rw [e]; simp
    unfold logOf at hmem
    obtain ⟨p, hp, _⟩ := List.mem_map.1 hmem
    rw [List.mem_filter] at hp
    exact List.mem_map.2 ⟨p, hp.1, by simpa using hp.2⟩

theorem log_text {jobs : List Job} {log : List (Nat × Text)}
    (h : ∀ p ∈ log, ∃ cs, jobs[p.1]? = some (.add cs) ∧ p.2 = Gcmd.commandsText cs) :
    (log.map Prod.snd).flatten = Gcmd.commandsText ((log.map Prod.fst).flatMap (batchOf jobs)) := by
  induction log with
  | nil => rfl
  | cons p log ih =>
    obtain ⟨cs, h1, h2⟩ := h p (by simp)
    have e : batchOf jobs p.1 = cs := by simp [batchOf, h1]
    have e2 : ∀ a b, Gcmd.commandsText (a ++ b) = Gcmd.commandsText a ++ Gcmd.commandsText b := by
      intro a b; simp [Gcmd.commandsText]
    rw [List.map_cons, List.flatten_cons, ih fun q hq => h q (by simp [hq]), List.map_cons, List.flatMap_cons, e2, e, h2]

/-! ### gc-build undisturbed -/

theorem saveWrites_flatten (g : DirectedGraph) : (saveWrites g).flatten = Gcmd.save g := by
  unfold saveWrites Gcmd.save
  rw [bufferedWrites_flatten, List.flatten_append]
  congr 1
  · induction g.vertices with
    | nil => rfl
    | cons v l ih => simp only [List.flatMap_cons, List.flatten_append, ih]; simp
  · induction g.edges with
    | nil => rfl
    | cons v l ih => simp only [List.flatMap_cons, List.flatten_append, ih]; simp

theorem loadGraph_lines {nd : Char → Bool} {root : FPath} {fs : FS} {c : Text} (hc : Content root fs c) :
    loadGraph nd root fs = loadLines nd (lines c) := by
  unfold Content at hc
  unfold loadGraph loadLines Gcmd.read Format.read Format.readAsCommands
  rw [hc]
  dsimp only
  cases Format.readLoop (Gcmd.parseLine nd) 0 (lines c) [] with
  | running => rfl
  | panicked => rfl
  | done r => cases r <;> rfl

/-- A reader that met no end of file so far has read the beginning of the file. -/
def ReadsPrefix (r : Reader) (c : Text) : Prop := r.closed = [] ∧ r.offset = r.current.length ∧ r.current <+: c

theorem ReadsPrefix.new (c : Text) : ReadsPrefix ⟨[], [], 0⟩ c := ⟨rfl, rfl, List.nil_prefix⟩

theorem ReadsPrefix.mono {r : Reader} {c d : Text} (h : ReadsPrefix r c) (hd : c <+: d) : ReadsPrefix r d := ⟨h.1, h.2.1, h.2.2.trans hd⟩

theorem stepOpen_content {root : FPath} {fs : FS} {c : Text} (hc : Content root fs c) : stepOpen root fs = .more ⟨[], [], 0⟩ := by
  unfold Content at hc
  unfold stepOpen
  rw [hc]

theorem readChunk_prefix {r : Reader} {c : Text} (h : ReadsPrefix r c) : r.current ++ readChunk c r.offset <+: c := by
  obtain ⟨rest, hrest⟩ := h.2.2
  unfold readChunk
  rw [h.2.1, ← hrest, List.drop_left, List.prefix_append_right_inj]
  exact List.take_prefix _ _

theorem readChunk_nil {r : Reader} {c : Text} (h : ReadsPrefix r c) (hn : readChunk c r.offset = []) : r.current = c := by
  obtain ⟨rest, hrest⟩ := h.2.2
  unfold readChunk at hn
  rw [h.2.1, ← hrest, List.drop_left] at hn
  rcases List.take_eq_nil_iff.1 hn with h | h
  · cases h
  · rw [← hrest, h, List.append_nil]

/-- One `read` of a file whose lines are all complete. -/
theorem stepRead_terminated {nd : Char → Bool} {root : FPath} {fs : FS} {c : Text} {r : Reader} (hc : Content root fs c)
    (ht : NewlineTerminated c) (h : ReadsPrefix r c) :
    (∃ r', stepRead nd root r fs = .more r' ∧ ReadsPrefix r' c ∧ r.offset < r'.offset) ∨ stepRead nd root r fs = .returned (loadLines nd (lines c)) := by
  unfold Content at hc
  unfold stepRead
  rw [hc]
  dsimp only
  by_cases hn : readChunk c r.offset = []
  · right
    rw [if_neg (by simpa using hn)]
    have e := readChunk_nil h hn
    rw [e, if_pos (show c = [] ∨ c.getLast? = some '\n' from ht)]
    unfold Reader.lines
    rw [h.1, e]
    rfl
  · left
    rw [if_pos hn]
    refine ⟨_, rfl, ⟨h.1, ?_, readChunk_prefix h⟩, ?_⟩
    · simp only [List.length_append, h.2.1]
    · have := List.length_pos_iff.2 hn
      dsimp only
      omega

/-- Where gc-build is when nobody else runs. -/
inductive BuildOk (root : FPath) (g : DirectedGraph) (fs0 : FS) (c : Text) : Pc → FS → Prop where
  | start : BuildOk root g fs0 c .start fs0
  | reading {r} : ReadsPrefix r c → BuildOk root g fs0 c (.reading r) fs0
  | loaded : BuildOk root g fs0 c (.loaded g) fs0
  | rewriting {done rest} : done ++ rest = saveWrites g →
      BuildOk root g fs0 c (.rewriting done.flatten.length rest) (fs0.set (commandPath root) (some (.file done.flatten)))
  | finished : BuildOk root g fs0 c (.finished true) (fs0.set (commandPath root) (some (.file (Gcmd.save g))))

theorem set_set (fs : FS) (p : FPath) (a b : Option Node) : (fs.set p a).set p b = fs.set p b := by
  funext q
  unfold FS.set
  split <;> rfl

theorem BuildOk.step {nd : Char → Bool} {order : DirectedGraph → DirectedGraph} {root : FPath} {g : DirectedGraph} {fs0 fs : FS} {pc : Pc}
    {c : Text} (hc : Content root fs0 c) (ht : NewlineTerminated c) (hg : loadGraph nd root fs0 = .done (.ok g))
    (h : BuildOk root (order g) fs0 c pc fs) :
    BuildOk root (order g) fs0 c (stepBuild nd order root pc fs).2 (stepBuild nd order root pc fs).1 := by
  cases h with
  | start =>
    simp only [stepBuild, stepOpen_content hc]
    exact .reading (.new c)
  | reading hr =>
    rcases stepRead_terminated (nd := nd) hc ht hr with ⟨r', e, h', _⟩ | e
    · simp only [stepBuild, e]
      exact .reading h'
    · rw [← loadGraph_lines hc, hg] at e
      simp only [stepBuild, e]
      exact .loaded
  | loaded =>
    unfold Content at hc
    simp only [stepBuild, createTruncate, hc]
    exact BuildOk.rewriting (done := []) rfl
  | @rewriting done rest hd =>
    cases rest with
    | nil =>
      simp only [stepBuild]
      rw [List.append_nil] at hd
      rw [hd, saveWrites_flatten]
      exact .finished
    | cons t rest =>
      simp only [stepBuild]
      have e : writeAt (commandPath root) done.flatten.length t (fs0.set (commandPath root) (some (.file done.flatten))) =
          fs0.set (commandPath root) (some (.file (done ++ [t]).flatten)) := by
        unfold writeAt
        rw [FS.set_self]
        simp only
        rw [set_set]
        congr 3
        rw [List.take_length, Nat.sub_self, List.drop_eq_nil_of_le (by omega)]
        simp
      rw [e]
      have e2 : done.flatten.length + t.length = (done ++ [t]).flatten.length := by simp
      rw [e2]
      exact .rewriting (by rw [← hd]; simp)
  | finished => exact .finished

theorem build_alone {nd : Char → Bool} {order : Nat → DirectedGraph → DirectedGraph} {root : FPath} {jobs : List Job} {b : Nat}
    {g : DirectedGraph} {c : Text} {fs0 : FS} (hb : jobs[b]? = some .build) (hc : Content root fs0 c) (ht : NewlineTerminated c)
    (hg : loadGraph nd root fs0 = .done (.ok g)) (n : Nat) {s : Sys} (h : BuildOk root (order b g) fs0 c (s.pc b) s.fs) :
    BuildOk root (order b g) fs0 c (((List.replicate n b).foldl (step nd order root jobs) s).pc b)
      ((List.replicate n b).foldl (step nd order root jobs) s).fs ∧
    ∀ i, i ≠ b → ((List.replicate n b).foldl (step nd order root jobs) s).pc i = s.pc i := by
  induction n generalizing s with
  | zero => exact ⟨h, fun _ _ => rfl⟩
  | succ n ih =>
    rw [List.replicate_succ, List.foldl_cons]
    have h1 : BuildOk root (order b g) fs0 c ((step nd order root jobs s b).pc b) (step nd order root jobs s b).fs := by
      unfold Concurrent.step
      rw [hb]
      simp only [stepJob, if_true]
      exact h.step hc ht hg
    obtain ⟨h2, h3⟩ := ih h1
    refine ⟨h2, fun i hi => ?_⟩
    rw [h3 i hi]
    unfold Concurrent.step
    rw [hb]
    simp [hi]

/-- Steps of additions do not move gc-build. -/
theorem pc_other {nd : Char → Bool} {order : Nat → DirectedGraph → DirectedGraph} {root : FPath} {jobs : List Job} (sched : List Nat) {b : Nat}
    (hs : b ∉ sched) (s : Sys) : (sched.foldl (step nd order root jobs) s).pc b = s.pc b := by
  induction sched generalizing s with
  | nil => rfl
  | cons i sched ih =>
    rw [List.foldl_cons, ih (fun h => hs (by simp [h]))]
    unfold Concurrent.step
    cases jobs[i]? with
    | none => rfl
    | some job =>
      have : b ≠ i := fun h => hs (by simp [h])
      simp [this]

/-! ### One addition alone does what `applyGraphCommands` does -/

theorem foldl_appendText (p : FPath) (ts : List Text) (fs : FS) :
    ts.foldl (fun fs t => appendText p t fs) fs = appendText p ts.flatten fs := by
  induction ts generalizing fs with
  | nil =>
    unfold appendText
    simp only [List.foldl_nil, List.flatten_nil, List.append_nil]
    split
    · rename_i c hc
      funext q
      unfold FS.set
      split
      · rename_i hq; rw [hq, hc]
      · rfl
    · rfl
  | cons t ts ih =>
    rw [List.foldl_cons, ih]
    unfold appendText
    cases e : fs p with
    | none => simp [e]
    | some n =>
      cases n with
      | dir => simp [e]
      | file c =>
        simp only [FS.set_self]
        rw [set_set]
        simp

/-- Iterated steps of one addition. -/
def iterAdd (root : FPath) (cs : List GraphCommand) : Nat → Pc → FS → FS × Pc
  | 0, pc, fs => (fs, pc)
  | n + 1, pc, fs => iterAdd root cs n (stepAdd root cs pc fs).2 (stepAdd root cs pc fs).1

theorem iterAdd_writing (root : FPath) (cs : List GraphCommand) (ts : List Text) (n : Nat) (fs : FS) :
    iterAdd root cs (n + ts.length) (.writing ts) fs = iterAdd root cs n (.writing []) (appendText (commandPath root) ts.flatten fs) := by
  rw [← foldl_appendText]
  induction ts generalizing fs with
  | nil => rfl
  | cons t ts ih =>
    rw [List.length_cons, ← Nat.add_assoc, List.foldl_cons]
    show iterAdd root cs (n + ts.length) (.writing ts) (appendText (commandPath root) t fs) = _
    exact ih _

theorem iterAdd_finished (root : FPath) (cs : List GraphCommand) (ok : Bool) (n : Nat) (fs : FS) :
    iterAdd root cs n (.finished ok) fs = (fs, .finished ok) := by
  induction n generalizing fs with
  | zero => rfl
  | succ n ih => exact ih fs

/-- One addition, run alone to its end, does what `applyGraphCommands` does. -/
theorem iterAdd_eq (root : FPath) (cs : List GraphCommand) (n : Nat) (hn : (addWrites cs).length + 5 ≤ n) (fs : FS) :
    iterAdd root cs n .start fs =
      ((applyGraphCommands root cs fs).1, .finished (match (applyGraphCommands root cs fs).2 with | .ok () => true | .error _ => false)) := by
  obtain ⟨m, rfl⟩ : ∃ m, n = m + (addWrites cs).length + 5 := ⟨n - ((addWrites cs).length + 5), by omega⟩
  show iterAdd root cs (m + (addWrites cs).length + 4) .dirs (createDirAll root fs).1 = _
  unfold applyGraphCommands withLock lock touch
  have hd : (lockPath root).dropLast = root := by simp [lockPath]
  rw [hd]
  generalize (createDirAll root fs).1 = fs1
  show iterAdd root cs (m + (addWrites cs).length + 3) (stepAdd root cs .dirs fs1).2 (stepAdd root cs .dirs fs1).1 = _
  simp only [stepAdd]
  cases e1 : openCreate (lockPath root) fs1 with
  | mk fs2 r1 =>
    cases r1 with
    | error e => simp only; rw [iterAdd_finished]
    | ok _ =>
      simp only
      show iterAdd root cs (m + (addWrites cs).length + 2) (stepAdd root cs .locked fs2).2 (stepAdd root cs .locked fs2).1 = _
      simp only [stepAdd, addCommandsTo]
      cases e2 : openAppend (commandPath root) fs2 with
      | mk fs3 r2 =>
        cases r2 with
        | error e =>
          simp only
          show iterAdd root cs (m + (addWrites cs).length + 1) (stepAdd root cs (.unlocking (.error e)) fs3).2
            (stepAdd root cs (.unlocking (.error e)) fs3).1 = _
          simp only [stepAdd]
          cases e3 : unlock root fs3 with
          | mk fs4 r3 =>
            cases r3 <;> (simp only; rw [iterAdd_finished])
        | ok _ =>
          simp only
          have e5 : m + (addWrites cs).length + 2 = (m + 2) + (addWrites cs).length := by omega
          rw [e5, iterAdd_writing, addWrites_flatten]
          show iterAdd root cs m (stepAdd root cs (.unlocking (.ok ())) (appendText (commandPath root) (Gcmd.commandsText cs) fs3)).2
            (stepAdd root cs (.unlocking (.ok ())) (appendText (commandPath root) (Gcmd.commandsText cs) fs3)).1 = _
          generalize appendText (commandPath root) (Gcmd.commandsText cs) fs3 = fs4
          simp only [stepAdd]
          cases e3 : unlock root fs4 with
          | mk fs5 r3 =>
            cases r3 <;> (simp only; rw [iterAdd_finished])

theorem run_alone (nd : Char → Bool) (order : Nat → DirectedGraph → DirectedGraph) (root : FPath) (cs : List GraphCommand) (n : Nat) (s : Sys) :
    (((List.replicate n 0).foldl (step nd order root [.add cs]) s).fs, ((List.replicate n 0).foldl (step nd order root [.add cs]) s).pc 0) =
      iterAdd root cs n (s.pc 0) s.fs := by
  induction n generalizing s with
  | zero => rfl
  | succ n ih =>
    rw [List.replicate_succ, List.foldl_cons, ih]
    rfl

/-! ### Single steps of an addition -/

/-- `s'` is `s` after steps of process `i` that left it at `pc` and the command file with content `c`. -/
structure Moved (root : FPath) (i : Nat) (pc : Pc) (c : Text) (s s' : Sys) : Prop where
  ready : Ready root s'.fs
  content : Content root s'.fs c
  here : s'.pc i = pc
  others : ∀ j, j ≠ i → s'.pc j = s.pc j

section
variable {nd : Char → Bool} {order : Nat → DirectedGraph → DirectedGraph} {root : FPath} {jobs : List Job} {s : Sys} {i : Nat}
  {cs : List GraphCommand} {c : Text}

theorem step_add (hi : jobs[i]? = some (.add cs)) {pc : Pc} (hp : s.pc i = pc) {fs' : FS} {pc' : Pc}
    (h : stepAdd root cs pc s.fs = (fs', pc')) (hr : Ready root fs') (hc : Content root fs' c) :
    Moved root i pc' c s (step nd order root jobs s i) := by
  unfold Concurrent.step
  rw [hi]
  simp only [stepJob, hp, h]
  exact ⟨hr, hc, by simp, fun j hj => by simp [hj]⟩

theorem moved_start (hi : jobs[i]? = some (.add cs)) (hr : Ready root s.fs) (hc : Content root s.fs c) (hp : s.pc i = .start) :
    Moved root i .dirs c s (step nd order root jobs s i) :=
  step_add hi hp rfl (by rw [createDirAll_ready hr]; exact hr) (by rw [createDirAll_ready hr]; exact hc)

theorem moved_dirs (hi : jobs[i]? = some (.add cs)) (hr : Ready root s.fs) (hc : Content root s.fs c) (hp : s.pc i = .dirs) :
    Moved root i .locked c s (step nd order root jobs s i) ∧ FileAt (step nd order root jobs s i).fs (lockPath root) := by
  obtain ⟨n, h1, c', h2⟩ := openCreate_lock hr
  have e : stepAdd root cs .dirs s.fs = (s.fs.set (lockPath root) n, .locked) := by simp only [stepAdd, h1]
  refine ⟨step_add hi hp e (ready_set_lock hr (by rw [h2]; simp)) (content_set_lock hc n), c', ?_⟩
  unfold Concurrent.step
  rw [hi]
  simp only [stepJob, hp, e]
  rw [FS.set_self, h2]

theorem moved_locked (hi : jobs[i]? = some (.add cs)) (hr : Ready root s.fs) (hc : Content root s.fs c) (hp : s.pc i = .locked) :
    Moved root i (.writing (addWrites cs)) c s (step nd order root jobs s i) := by
  have hc' := hc
  unfold Content at hc'
  exact step_add hi hp (by simp only [stepAdd, openAppend, hc']) hr hc

theorem moved_write (hi : jobs[i]? = some (.add cs)) (hr : Ready root s.fs) (hc : Content root s.fs c) {t : Text} {rest : List Text}
    (hp : s.pc i = .writing (t :: rest)) : Moved root i (.writing rest) (c ++ t) s (step nd order root jobs s i) := by
  have hc' := hc
  unfold Content at hc'
  have e : appendText (commandPath root) t s.fs = s.fs.set (commandPath root) (some (.file (c ++ t))) := by
    unfold appendText
    rw [hc']
  exact step_add hi hp (fs' := s.fs.set (commandPath root) (some (.file (c ++ t)))) (by simp only [stepAdd, e]) (ready_set_command hr _)
    (FS.set_self _ _ _)

theorem moved_written (hi : jobs[i]? = some (.add cs)) (hr : Ready root s.fs) (hc : Content root s.fs c) (hp : s.pc i = .writing []) :
    Moved root i (.unlocking (.ok ())) c s (step nd order root jobs s i) := step_add hi hp rfl hr hc

theorem moved_unlock (hi : jobs[i]? = some (.add cs)) (hr : Ready root s.fs) (hc : Content root s.fs c)
    (hp : s.pc i = .unlocking (.ok ())) : ∃ ok, Moved root i (.finished ok) c s (step nd order root jobs s i) := by
  cases e : s.fs (lockPath root) with
  | none =>
    refine ⟨false, step_add hi hp (fs' := s.fs) ?_ hr hc⟩
    simp only [stepAdd, unlock, removeFile, e]
  | some n =>
    cases n with
    | dir => exact absurd e hr.2.2
    | file t =>
      refine ⟨true, step_add hi hp (fs' := s.fs.set (lockPath root) none) ?_ (ready_set_lock hr (by simp)) (content_set_lock hc _)⟩
      simp only [stepAdd, unlock, removeFile, e]

end

/-- A batch whose text without the last line feed fills the buffer exactly. -/
theorem addWrites_exact {cs : List GraphCommand} {c : GraphCommand}
    (h : (Gcmd.commandsText cs).length + (Gcmd.commandIntoLine c).length = bufCapacity) (hne : cs ≠ []) :
    addWrites (cs ++ [c]) = [Gcmd.commandsText cs ++ Gcmd.commandIntoLine c, ['\n']] := by
  have hlen : 0 < (Gcmd.commandsText cs).length := by
    rw [List.length_pos_iff]
    exact fun e => hne (commandsText_eq_nil.1 e)
  have hpieces : ((cs ++ [c]).flatMap fun c => [Gcmd.commandIntoLine c, ['\n']]) =
      (cs.flatMap (fun c => [Gcmd.commandIntoLine c, ['\n']]) ++ [Gcmd.commandIntoLine c]) ++ [['\n']] := by simp
  have hfl : (cs.flatMap (fun c => [Gcmd.commandIntoLine c, ['\n']]) ++ [Gcmd.commandIntoLine c]).flatten =
      Gcmd.commandsText cs ++ Gcmd.commandIntoLine c := by
    rw [List.flatten_append, pieces_flatten]
    simp
  unfold addWrites bufferedWrites
  rw [hpieces, List.foldl_append, foldl_write_small _ [] [] ?_ (by rw [hfl, List.length_append, h]; simp), hfl]
  · simp only [List.foldl_cons, List.foldl_nil, List.nil_append]
    generalize ht : Gcmd.commandsText cs ++ Gcmd.commandIntoLine c = t
    have hl : t.length = bufCapacity := by rw [← ht, List.length_append, h]
    have hnt : t ≠ [] := by
      rintro rfl
      rw [List.append_eq_nil_iff] at ht
      exact hne (commandsText_eq_nil.1 ht.1)
    have e : BufWriter.write ⟨[], t⟩ ['\n'] = ⟨[t], ['\n']⟩ := by
      have h1 : t.length + ['\n'].length > bufCapacity := by rw [hl]; exact Nat.lt_succ_self _
      have h2 : ¬ ['\n'].length ≥ bufCapacity := by decide
      unfold BufWriter.write BufWriter.flush
      simp only [if_pos h1, if_neg h2, if_neg hnt, List.nil_append]
    rw [e]
    rfl
  · intro p hp
    rw [List.mem_append, List.mem_flatMap] at hp
    rcases hp with ⟨d, hd, hp⟩ | hp
    · have := length_commandsText_mem hd
      simp only [List.mem_cons, List.not_mem_nil, or_false] at hp
      rcases hp with rfl | rfl
      · omega
      · decide
    · simp only [List.mem_singleton] at hp
      subst hp
      omega

/-- A process that is in the block or releases the lock, while no process returned, finds the lock file. -/
def LockInv (root : FPath) (s : Sys) : Prop :=
  (∃ i, InBlock (s.pc i) ∨ ∃ r, s.pc i = .unlocking r) → (∃ j, Finished (s.pc j)) ∨ FileAt s.fs (lockPath root)

theorem LockInv.step {nd : Char → Bool} {order : Nat → DirectedGraph → DirectedGraph} {root : FPath} {jobs : List Job} {base : Text}
    {pre log : List (Nat × Text)} {s : Sys} (ha : AddInv root jobs base pre log s) {i : Nat} {cs : List GraphCommand}
    (hi : jobs[i]? = some (.add cs)) (h : LockInv root s) : LockInv root (step nd order root jobs s i) := by
  have key : ∀ s', (∀ j, j ≠ i → s'.pc j = s.pc j) → ¬ Finished (s.pc i) → FileAt s.fs (lockPath root) = FileAt s'.fs (lockPath root) →
      ((InBlock (s'.pc i) ∨ ∃ r, s'.pc i = .unlocking r) → (InBlock (s.pc i) ∨ ∃ r, s.pc i = .unlocking r)) → LockInv root s' := by
    rintro s' h1 h2 h3 h4 ⟨j, hj⟩
    have : (∃ j, Finished (s.pc j)) ∨ FileAt s.fs (lockPath root) := by
      apply h
      by_cases e : j = i
      · subst e; exact ⟨j, h4 hj⟩
      · rw [h1 j e] at hj; exact ⟨j, hj⟩
    rcases this with ⟨k, hk⟩ | hk
    · left
      refine ⟨k, ?_⟩
      rw [h1 k (by rintro rfl; exact h2 hk)]
      exact hk
    · right; rw [← h3]; exact hk
  have hpc := ha.ok i cs hi
  cases hp : s.pc i with
  | start =>
    have m := moved_start (nd := nd) (order := order) hi ha.ready ha.content hp
    refine key _ m.others (by rw [hp]; rintro ⟨_, h⟩; cases h) ?_ ?_
    · have e : (Concurrent.step nd order root jobs s i).fs = s.fs := by
        unfold Concurrent.step
        rw [hi]
        simp only [stepJob, hp, stepAdd, createDirAll_ready ha.ready]
      rw [e]
    · rw [m.here]
      rintro ((h | ⟨_, h⟩) | ⟨_, h⟩) <;> cases h
  | dirs => exact fun _ => .inr (moved_dirs (nd := nd) (order := order) hi ha.ready ha.content hp).2
  | locked =>
    have m := moved_locked (nd := nd) (order := order) hi ha.ready ha.content hp
    refine key _ m.others (by rw [hp]; rintro ⟨_, h⟩; cases h) ?_ (fun _ => .inl (.inl hp))
    have e : (Concurrent.step nd order root jobs s i).fs = s.fs := by
      have hc := ha.content
      unfold Content at hc
      unfold Concurrent.step
      rw [hi]
      simp only [stepJob, hp, stepAdd, openAppend, hc]
    rw [e]
  | writing rest =>
    cases rest with
    | nil =>
      have m := moved_written (nd := nd) (order := order) hi ha.ready ha.content hp
      refine key _ m.others (by rw [hp]; rintro ⟨_, h⟩; cases h) ?_ (fun _ => .inl (.inr ⟨_, hp⟩))
      have e : (Concurrent.step nd order root jobs s i).fs = s.fs := by
        unfold Concurrent.step
        rw [hi]
        simp only [stepJob, hp, stepAdd]
      rw [e]
    | cons t rest =>
      have m := moved_write (nd := nd) (order := order) hi ha.ready ha.content hp
      refine key _ m.others (by rw [hp]; rintro ⟨_, h⟩; cases h) ?_ (fun _ => .inl (.inr ⟨_, hp⟩))
      have e : (Concurrent.step nd order root jobs s i).fs (lockPath root) = s.fs (lockPath root) := by
        have hc := ha.content
        unfold Content at hc
        unfold Concurrent.step
        rw [hi]
        simp only [stepJob, hp, stepAdd, appendText, hc]
        exact FS.set_other _ _ (lock_ne_command root).symm
      unfold FileAt
      rw [e]
  | unlocking r =>
    rw [hp] at hpc
    generalize logOf i (pre ++ log) = l at hpc
    generalize addWrites cs = w at hpc
    cases hpc
    obtain ⟨ok, m⟩ := moved_unlock (nd := nd) (order := order) hi ha.ready ha.content hp
    exact fun _ => .inl ⟨i, ok, m.here⟩
  | reading r =>
    rw [hp] at hpc
    generalize logOf i (pre ++ log) = l at hpc
    generalize addWrites cs = w at hpc
    cases hpc
  | answered res =>
    rw [hp] at hpc
    generalize logOf i (pre ++ log) = l at hpc
    generalize addWrites cs = w at hpc
    cases hpc
  | loaded g =>
    rw [hp] at hpc
    generalize logOf i (pre ++ log) = l at hpc
    generalize addWrites cs = w at hpc
    cases hpc
  | rewriting o rest =>
    rw [hp] at hpc
    generalize logOf i (pre ++ log) = l at hpc
    generalize addWrites cs = w at hpc
    cases hpc
  | finished ok =>
    refine fun _ => .inl ⟨i, ok, ?_⟩
    unfold Concurrent.step
    rw [hi]
    simp [stepJob, hp, stepAdd]

theorem LockInv.run {nd : Char → Bool} {order : Nat → DirectedGraph → DirectedGraph} {root : FPath} {jobs : List Job} {base : Text}
    {pre : List (Nat × Text)} (sched : List Nat) (hs : ∀ i ∈ sched, jobs[i]? ≠ some .build ∧ jobs[i]? ≠ some .query ∧ jobs[i]? ≠ some .init) {log : List (Nat × Text)} {s : Sys}
    (ha : AddInv root jobs base pre log s) (h : LockInv root s) :
    LockInv root (sched.foldl (Concurrent.step nd order root jobs) s) := by
  induction sched generalizing log s with
  | nil => exact h
  | cons i sched ih =>
    rw [List.foldl_cons]
    cases e : jobs[i]? with
    | none => rw [step_none e]; exact ih (fun j hj => hs j (by simp [hj])) ha h
    | some job =>
      cases job with
      | build => exact absurd e (hs i (by simp)).1
      | query => exact absurd e (hs i (by simp)).2.1
      | init => exact absurd e (hs i (by simp)).2.2
      | add cs =>
        obtain ⟨log', ha'⟩ := ha.step (nd := nd) (order := order) e
        exact ih (fun j hj => hs j (by simp [hj])) ha' (h.step ha e)

/-! ### Readers -/

theorem stepBuild_late {nd : Char → Bool} {order : DirectedGraph → DirectedGraph} {root : FPath} {pc : Pc} {fs : FS} (h : ¬ NotLoaded pc) :
    ¬ NotLoaded (stepBuild nd order root pc fs).2 := by
  cases pc with
  | start => exact absurd (.inl rfl) h
  | reading r => exact absurd (.inr ⟨r, rfl⟩) h
  | loaded g =>
    simp only [stepBuild]
    cases createTruncate (commandPath root) fs with
    | mk a b => cases b <;> (rintro (h | ⟨_, h⟩) <;> cases h)
  | rewriting o rest => cases rest <;> (rintro (h | ⟨_, h⟩) <;> cases h)
  | _ => exact h

theorem late_run {nd : Char → Bool} {order : Nat → DirectedGraph → DirectedGraph} {root : FPath} {jobs : List Job} (sched : List Nat) {b : Nat}
    (hb : jobs[b]? = some .build) {s : Sys} (h : ¬ NotLoaded (s.pc b)) : ¬ NotLoaded ((sched.foldl (step nd order root jobs) s).pc b) := by
  induction sched generalizing s with
  | nil => exact h
  | cons i sched ih =>
    rw [List.foldl_cons]
    apply ih
    unfold Concurrent.step
    cases e : jobs[i]? with
    | none => exact h
    | some job =>
      dsimp only
      by_cases hi : b = i
      · subst hi
        rw [hb] at e
        cases e
        simp only [stepJob, if_true]
        exact stepBuild_late h
      · simp only [hi, if_false]
        exact h

/-- The text of a log of writes. -/
def logText (log : List (Nat × Text)) : Text := (log.map Prod.snd).flatten

theorem logText_append (a b : List (Nat × Text)) : logText (a ++ b) = logText a ++ logText b := by simp [logText]

/-- Where a reader is. `k0` is the number of writes made before it began. -/
inductive ReadOk (nd : Char → Bool) (base : Text) (k0 : Nat) (log : List (Nat × Text)) : Pc → Prop where
  | start : ReadOk nd base k0 log .start
  | reading {r} : ReadsPrefix r (base ++ logText log) → ReadOk nd base k0 log (.reading r)
  | answered {k} : k0 ≤ k → k ≤ log.length → ReadOk nd base k0 log (.answered (loadLines nd (lines (base ++ logText (log.take k)))))

theorem ReadOk.mono {nd : Char → Bool} {base : Text} {k0 : Nat} {log : List (Nat × Text)} {pc : Pc} (h : ReadOk nd base k0 log pc)
    (log' : List (Nat × Text)) : ReadOk nd base k0 (log ++ log') pc := by
  cases h with
  | start => exact .start
  | reading h => exact .reading (h.mono (by rw [logText_append, ← List.append_assoc]; exact List.prefix_append _ _))
  | @answered k h1 h2 =>
    have e : log.take k = (log ++ log').take k := by rw [List.take_append_of_le_length h2]
    rw [e]
    exact .answered h1 (by rw [List.length_append]; omega)

/-- Additions, and readers that began after `k0` writes. -/
structure ReadInv (nd : Char → Bool) (root : FPath) (jobs : List Job) (base : Text) (k0 : Nat → Nat) (log : List (Nat × Text)) (s : Sys) : Prop where
  add : AddInv root jobs base [] log s
  query : ∀ i : Nat, jobs[i]? = some .query → ReadOk nd base (k0 i) log (s.pc i)
  build : ∀ i : Nat, jobs[i]? = some .build → ReadOk nd base (k0 i) log (s.pc i)
  began : ∀ i : Nat, k0 i ≤ log.length

/-- All batches fit into the buffer. -/
def Small (jobs : List Job) : Prop :=
  ∀ (i : Nat) (cs : List GraphCommand), jobs[i]? = some (.add cs) → (Gcmd.commandsText cs).length ≤ bufCapacity

theorem AddInv.serial {root : FPath} {jobs : List Job} {base : Text} {log : List (Nat × Text)} {s : Sys}
    (h : AddInv root jobs base [] log s) (hs : Small jobs) :
    logText log = Gcmd.commandsText ((log.map Prod.fst).flatMap (batchOf jobs)) :=
  log_text (small_order h.ok h.known hs).2.1

theorem AddInv.terminated {root : FPath} {jobs : List Job} {base : Text} {log : List (Nat × Text)} {s : Sys}
    (h : AddInv root jobs base [] log s) (hs : Small jobs) (ht : NewlineTerminated base) : NewlineTerminated (base ++ logText log) := by
  rw [h.serial hs]
  exact newlineTerminated_append ht (terminated_commandsText _)

theorem stepQuery_ok {nd : Char → Bool} {root : FPath} {fs : FS} {base : Text} {k0 : Nat} {log : List (Nat × Text)} {pc : Pc}
    (hc : Content root fs (base ++ logText log)) (ht : NewlineTerminated (base ++ logText log)) (hk : k0 ≤ log.length)
    (h : ReadOk nd base k0 log pc) : ReadOk nd base k0 log (stepQuery nd root pc fs).2 := by
  cases h with
  | start =>
    simp only [stepQuery, stepOpen_content hc]
    exact .reading (.new _)
  | reading h =>
    rcases stepRead_terminated (nd := nd) hc ht h with ⟨r', e, h', _⟩ | e
    · simp only [stepQuery, e]
      exact .reading h'
    · simp only [stepQuery, e]
      have := ReadOk.answered (nd := nd) (base := base) (log := log) hk (Nat.le_refl _)
      rwa [List.take_length] at this
  | answered h1 h2 => exact .answered h1 h2

theorem stepBuild_early {nd : Char → Bool} {order : DirectedGraph → DirectedGraph} {root : FPath} {fs : FS} {base : Text} {k0 : Nat}
    {log : List (Nat × Text)} {pc : Pc}
    (hc : Content root fs (base ++ logText log)) (ht : NewlineTerminated (base ++ logText log))
    (h : ReadOk nd base k0 log pc) (he : NotLoaded pc) :
    (stepBuild nd order root pc fs).1 = fs ∧
      (¬ NotLoaded (stepBuild nd order root pc fs).2 ∨ ReadOk nd base k0 log (stepBuild nd order root pc fs).2) := by
  cases h with
  | start =>
    simp only [stepBuild, stepOpen_content hc]
    exact ⟨trivial, .inr (.reading (.new _))⟩
  | reading h =>
    rcases stepRead_terminated (nd := nd) hc ht h with ⟨r', e, h', _⟩ | e
    · simp only [stepBuild, e]
      exact ⟨trivial, .inr (.reading h')⟩
    · simp only [stepBuild, e]
      split
      · rename_i heq; cases heq
      · exact ⟨rfl, .inl (by rintro (h | ⟨_, h⟩) <;> cases h)⟩
      · exact ⟨rfl, .inl (by rintro (h | ⟨_, h⟩) <;> cases h)⟩
  | answered h1 h2 => rcases he with h | ⟨_, h⟩ <;> cases h

/-- Additions and readers, as long as no gc-build loaded its graph. -/
theorem ReadInv.run {nd : Char → Bool} {order : Nat → DirectedGraph → DirectedGraph} {root : FPath} {jobs : List Job} {base : Text}
    {k0 : Nat → Nat} (hs : Small jobs) (ht : NewlineTerminated base) (sched : List Nat) {log : List (Nat × Text)} {s : Sys}
    (h : ReadInv nd root jobs base k0 log s) :
    (∃ b : Nat, jobs[b]? = some .build ∧ ¬ NotLoaded ((sched.foldl (Concurrent.step nd order root jobs) s).pc b)) ∨
    ∃ log', ReadInv nd root jobs base k0 (log ++ log') (sched.foldl (Concurrent.step nd order root jobs) s) := by
  induction sched generalizing log s with
  | nil => exact .inr ⟨[], by simpa using h⟩
  | cons i sched ih =>
    rw [List.foldl_cons]
    have hterm := h.add.terminated hs ht
    cases e : jobs[i]? with
    | none => rw [step_none e]; exact ih h
    | some job =>
      have hpc : ∀ j, j ≠ i → (Concurrent.step nd order root jobs s i).pc j = s.pc j := by
        intro j hj
        unfold Concurrent.step
        rw [e]
        simp [hj]
      cases job with
      | add cs =>
        obtain ⟨l1, h1⟩ := h.add.step (nd := nd) (order := order) e
        have h2 : ReadInv nd root jobs base k0 (log ++ l1) (Concurrent.step nd order root jobs s i) := by
          refine ⟨h1, fun j hj => ?_, fun j hj => ?_, fun j => ?_⟩
          · rw [hpc j (by rintro rfl; rw [e] at hj; cases hj)]
            exact (h.query j hj).mono l1
          · rw [hpc j (by rintro rfl; rw [e] at hj; cases hj)]
            exact (h.build j hj).mono l1
          · have := h.began j
            rw [List.length_append]
            omega
        rcases ih h2 with h3 | ⟨l2, h3⟩
        · exact .inl h3
        · exact .inr ⟨l1 ++ l2, by rw [← List.append_assoc]; exact h3⟩
      | query =>
        have h1 := h.add.quiet (nd := nd) (order := order) e (fun _ => by simp) (stepQuery_fs nd root _ _)
        apply ih
        refine ⟨h1, fun j hj => ?_, fun j hj => ?_, h.began⟩
        · by_cases hji : j = i
          · subst hji
            have := stepQuery_ok (root := root) h.add.content hterm (h.began j) (h.query j hj)
            unfold Concurrent.step
            rw [e]
            simp only [stepJob, if_true]
            exact this
          · rw [hpc j hji]; exact h.query j hj
        · rw [hpc j (by rintro rfl; rw [e] at hj; cases hj)]
          exact h.build j hj
      | init =>
        apply ih
        refine ⟨h.add.quiet (nd := nd) (order := order) e (fun _ => by simp) (stepInit_fs h.add.ready _), fun j hj => ?_, fun j hj => ?_, h.began⟩
        · rw [hpc j (by rintro rfl; rw [e] at hj; cases hj)]
          exact h.query j hj
        · rw [hpc j (by rintro rfl; rw [e] at hj; cases hj)]
          exact h.build j hj
      | build =>
        by_cases he : NotLoaded (s.pc i)
        · obtain ⟨h1, h2⟩ := stepBuild_early (nd := nd) (order := order i) (root := root) h.add.content hterm (h.build i e) he
          have hi : (Concurrent.step nd order root jobs s i).pc i = (stepBuild nd (order i) root (s.pc i) s.fs).2 := by
            unfold Concurrent.step
            rw [e]
            simp [stepJob]
          rcases h2 with h2 | h2
          · exact .inl ⟨i, e, late_run sched e (by rw [hi]; exact h2)⟩
          · apply ih
            refine ⟨h.add.quiet (nd := nd) (order := order) e (fun _ => by simp) h1, fun j hj => ?_, fun j hj => ?_, h.began⟩
            · rw [hpc j (by rintro rfl; rw [e] at hj; cases hj)]
              exact h.query j hj
            · by_cases hji : j = i
              · subst hji; rw [hi]; exact h2
              · rw [hpc j hji]; exact h.build j hj
        · exact .inl ⟨i, e, late_run (i :: sched) e he⟩

theorem readInv_init {nd : Char → Bool} {root : FPath} {jobs : List Job} {base : Text} {fs : FS} (hr : Ready root fs)
    (hc : Content root fs base) : ReadInv nd root jobs base (fun _ => 0) [] ⟨fs, fun _ => .start⟩ :=
  ⟨addInv_init hr hc, fun _ _ => .start, fun _ _ => .start, fun _ => Nat.le_refl _⟩

/-- A query that runs alone answers what `loadGraph` computes. -/
def iterQuery (nd : Char → Bool) (root : FPath) (fs : FS) : Nat → Pc → Pc
  | 0, pc => pc
  | n + 1, pc => iterQuery nd root fs n (stepQuery nd root pc fs).2

theorem iterQuery_answered (nd : Char → Bool) (root : FPath) (fs : FS) (res) (n : Nat) :
    iterQuery nd root fs n (.answered res) = .answered res := by
  induction n with
  | zero => rfl
  | succ n ih => exact ih

theorem iterQuery_reading {nd : Char → Bool} {root : FPath} {fs : FS} {c : Text} (hc : Content root fs c) (n : Nat) {r : Reader}
    (h : ReadsPrefix r c) (hn : c.length + 3 ≤ n + r.offset) : iterQuery nd root fs n (.reading r) = .answered (loadLines nd (lines c)) := by
  induction n generalizing r with
  | zero =>
    have := h.2.2.length_le
    rw [← h.2.1] at this
    omega
  | succ n ih =>
    have hc' := hc
    unfold Content at hc'
    show iterQuery nd root fs n (stepQuery nd root (.reading r) fs).2 = _
    by_cases hch : readChunk c r.offset = []
    · have e := readChunk_nil h hch
      by_cases ht : r.current = [] ∨ r.current.getLast? = some '\n'
      · simp only [stepQuery, stepRead, hc', hch, ne_eq, not_true_eq_false, if_false, if_pos ht]
        rw [iterQuery_answered]
        unfold Reader.lines
        rw [h.1, e]
        rfl
      · simp only [stepQuery, stepRead, hc', hch, ne_eq, not_true_eq_false, if_false, if_neg ht]
        rw [h.1, e]
        have ho := h.2.1
        rw [e] at ho
        obtain ⟨m, rfl⟩ : ∃ m, n = m + 1 := ⟨n - 1, by omega⟩
        show iterQuery nd root fs m (stepQuery nd root (.reading _) fs).2 = _
        simp only [stepQuery, stepRead, hc', hch, ne_eq, not_true_eq_false, if_false, true_or, if_true]
        rw [iterQuery_answered]
        unfold Reader.lines
        simp only [List.nil_append, List.flatMap_cons, List.flatMap_nil, List.append_nil]
        have : lines [] = [] := rfl
        rw [this, List.append_nil]
    · have e : (stepQuery nd root (.reading r) fs).2 =
          .reading { r with current := r.current ++ readChunk c r.offset, offset := r.offset + (readChunk c r.offset).length } := by
        simp only [stepQuery, stepRead, hc', if_pos hch]
      rw [e]
      have hpos := List.length_pos_iff.2 hch
      apply ih
      · refine ⟨h.1, ?_, readChunk_prefix h⟩
        simp only [List.length_append, h.2.1]
      · simp only
        omega

theorem run_query_alone (nd : Char → Bool) (order : Nat → DirectedGraph → DirectedGraph) (root : FPath) (n : Nat) (s : Sys) :
    ((List.replicate n 0).foldl (step nd order root [.query]) s).fs = s.fs ∧
    ((List.replicate n 0).foldl (step nd order root [.query]) s).pc 0 = iterQuery nd root s.fs n (s.pc 0) := by
  induction n generalizing s with
  | zero => exact ⟨rfl, rfl⟩
  | succ n ih =>
    rw [List.replicate_succ, List.foldl_cons]
    have e : (step nd order root [.query] s 0).fs = s.fs := stepQuery_fs nd root _ _
    have e2 : (step nd order root [.query] s 0).pc 0 = (stepQuery nd root (s.pc 0) s.fs).2 := rfl
    obtain ⟨h1, h2⟩ := ih (step nd order root [.query] s 0)
    exact ⟨h1.trans e, h2.trans (by rw [e, e2]; rfl)⟩

/-- What a query that begins after `before` read: the old content and the first `k` writes. -/
theorem reader_run {nd : Char → Bool} {order : Nat → DirectedGraph → DirectedGraph} {root : FPath} {jobs : List Job}
    (hnb : ∀ j : Nat, jobs[j]? ≠ some .build) (hsmall : Small jobs) (before after : List Nat) {fs : FS} {c : Text}
    (hr : Ready root fs) (hc : Content root fs c) (ht : NewlineTerminated c) (i : Nat) (hi : jobs[i]? = some .query)
    (hstart : (run nd order root jobs before fs).pc i = .start)
    (res : Run (Except LoadError DirectedGraph)) (hres : (run nd order root jobs (before ++ after) fs).pc i = .answered res) :
    ∃ (k : Nat) (log1 log2 : List (Nat × Text)), ReadInv nd root jobs c (fun _ => 0) log1 (run nd order root jobs before fs) ∧
      AddInv root jobs c [] (log1 ++ log2) (run nd order root jobs (before ++ after) fs) ∧
      log1.length ≤ k ∧ k ≤ (log1 ++ log2).length ∧ res = loadLines nd (lines (c ++ logText ((log1 ++ log2).take k))) := by
  have r1 := (readInv_init (nd := nd) (jobs := jobs) hr hc).run (order := order) hsmall ht before
  obtain ⟨log1, r1⟩ : ∃ log1, ReadInv nd root jobs c (fun _ => 0) log1 (run nd order root jobs before fs) := by
    rcases r1 with ⟨b, hb, _⟩ | ⟨log1, h⟩
    · exact absurd hb (hnb b)
    · exact ⟨log1, by rw [List.nil_append] at h; exact h⟩
  have r1' : ReadInv nd root jobs c (fun j => if j = i then log1.length else 0) log1 (run nd order root jobs before fs) := by
    refine ⟨r1.add, fun j hj => ?_, fun j hj => absurd hj (hnb j), fun j => ?_⟩
    · by_cases e : j = i
      · subst e
        rw [hstart]
        exact .start
      · rw [if_neg e]
        exact r1.query j hj
    · split <;> omega
  have r2 := r1'.run (order := order) hsmall ht after
  unfold run at hres ⊢
  rw [List.foldl_append] at hres ⊢
  rcases r2 with ⟨b, hb, _⟩ | ⟨log2, r2⟩
  · exact absurd hb (hnb b)
  · have h := r2.query i hi
    unfold run at h
    rw [hres, if_pos rfl] at h
    cases h with
    | @answered k h1 h2 => exact ⟨k, log1, log2, r1, r2.add, h1, h2, rfl⟩

theorem answered_run {nd : Char → Bool} {order : Nat → DirectedGraph → DirectedGraph} {root : FPath} {jobs : List Job} {i : Nat}
    (sched : List Nat) (hi : jobs[i]? = some .query) {s : Sys} {res : Run (Except LoadError DirectedGraph)} (h : s.pc i = .answered res) :
    (sched.foldl (step nd order root jobs) s).pc i = .answered res := by
  induction sched generalizing s with
  | nil => exact h
  | cons j sched ih =>
    rw [List.foldl_cons]
    apply ih
    unfold Concurrent.step
    cases e : jobs[j]? with
    | none => exact h
    | some job =>
      dsimp only
      by_cases hj : i = j
      · subst hj
        rw [hi] at e
        cases e
        simp [stepJob, h, stepQuery]
      · simp only [hj, if_false]
        exact h

/-- The number of steps a reader made, at most. -/
def rank : Pc → Nat
  | .reading r => r.offset + 1
  | _ => 0

theorem reader_progress {nd : Char → Bool} {order : Nat → DirectedGraph → DirectedGraph} {root : FPath} {jobs : List Job}
    (hnb : ∀ j : Nat, jobs[j]? ≠ some .build) (hsmall : Small jobs) {base : Text} {k0 : Nat → Nat} (ht : NewlineTerminated base)
    (i : Nat) (hi : jobs[i]? = some .query) (sched : List Nat) {log : List (Nat × Text)} {s : Sys}
    (h : ReadInv nd root jobs base k0 log s) :
    (∃ res, (sched.foldl (step nd order root jobs) s).pc i = .answered res) ∨
      rank (s.pc i) + sched.count i ≤ rank ((sched.foldl (step nd order root jobs) s).pc i) := by
  induction sched generalizing log s with
  | nil => right; simp
  | cons j sched ih =>
    rw [List.foldl_cons]
    obtain ⟨log', h'⟩ : ∃ log', ReadInv nd root jobs base k0 (log ++ log') (step nd order root jobs s j) := by
      rcases h.run (order := order) hsmall ht [j] with ⟨b, hb, _⟩ | h
      · exact absurd hb (hnb b)
      · exact h
    rcases ih h' with h1 | h1
    · exact .inl h1
    · by_cases hj : j = i
      · subst hj
        have hpc : (step nd order root jobs s j).pc j = (stepQuery nd root (s.pc j) s.fs).2 := by
          unfold Concurrent.step
          rw [hi]
          simp [stepJob]
        have hq := h.query j hi
        rw [hpc] at h1
        rw [List.count_cons_self]
        generalize hp : s.pc j = pc at hq h1
        cases hq with
        | start =>
          right
          simp only [stepQuery, stepOpen_content h.add.content] at h1
          simp only [rank] at h1 ⊢
          omega
        | reading hr =>
          rcases stepRead_terminated (nd := nd) h.add.content (h.add.terminated hsmall ht) hr with ⟨r', e, _, hlt⟩ | e
          · right
            simp only [stepQuery, e] at h1
            simp only [rank] at h1 ⊢
            omega
          · left
            have h2 : (step nd order root jobs s j).pc j = .answered (loadLines nd (lines (base ++ logText log))) := by
              rw [hpc, hp]
              simp only [stepQuery, e]
              rfl
            exact ⟨_, answered_run sched hi h2⟩
        | answered _ _ =>
          left
          have h2 := hpc
          rw [hp] at h2
          exact ⟨_, answered_run sched hi h2⟩
      · have hpc : (step nd order root jobs s j).pc i = s.pc i := by
          unfold Concurrent.step
          cases jobs[j]? with
          | none => rfl
          | some job => simp [Ne.symm hj]
        rw [hpc] at h1
        rw [List.count_cons_of_ne hj]
        exact .inr h1

end Concurrent
end GC
