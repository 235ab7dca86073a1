/-
Properties C61, C63 and C70: processes running concurrently on one directory.
-/
import Verif.Proofs.Concurrent
import Verif.Props.Store
namespace GC
namespace Concurrent
open Store Text Format

variable (nd : Char → Bool) (order : Nat → DirectedGraph → DirectedGraph)

/-- The small-step model agrees with the model of the single operation: an addition that runs alone does what `applyGraphCommands`
does, on every file system. -/
theorem C63_alone (root : FPath) (cs : List GraphCommand) (fs : FS) :
    ∃ n, ∀ m, n ≤ m →
      (run nd order root [.add cs] (List.replicate m 0) fs).fs = (applyGraphCommands root cs fs).1 ∧
      ((applyGraphCommands root cs fs).2 = .ok () → (run nd order root [.add cs] (List.replicate m 0) fs).pc 0 = .finished true) ∧
      (∀ e, (applyGraphCommands root cs fs).2 = .error e → (run nd order root [.add cs] (List.replicate m 0) fs).pc 0 = .finished false) := by
  refine ⟨(addWrites cs).length + 5, fun m hm => ?_⟩
  have h := (run_alone nd order root cs m ⟨fs, fun _ => .start⟩).trans (iterAdd_eq root cs m hm fs)
  rw [Prod.mk.injEq] at h
  refine ⟨h.1, fun e => ?_, fun e he => ?_⟩
  · have := h.2; rw [e] at this; exact this
  · have := h.2; rw [he] at this; exact this

/-- C63, for batches of any size, at every point of every schedule (also when processes crashed): the file holds the old content
followed by pieces, each from one process. The pieces of a process are, in order, a beginning of its batch, and all of it once it
returned. -/
theorem C63_interleaving (root : FPath) (batches : List (List GraphCommand)) (schedule : List Nat) (fs : FS) (c : Text)
    (hr : Ready root fs) (hc : Content root fs c) :
    ∃ log : List (Nat × Text),
      Content root (run nd order root (adds batches) schedule fs).fs (c ++ (log.map Prod.snd).flatten) ∧
      (∀ p ∈ log, p.1 < batches.length) ∧
      ∀ i cs, batches[i]? = some cs →
        ((log.filter fun p => p.1 = i).map Prod.snd).flatten <+: Gcmd.commandsText cs ∧
        (Finished ((run nd order root (adds batches) schedule fs).pc i) →
          ((log.filter fun p => p.1 = i).map Prod.snd).flatten = Gcmd.commandsText cs) := by
  have hjobs : ∀ i : Nat, (adds batches)[i]? = (batches[i]?).map Job.add := by intro i; simp [adds]
  have hnb : ∀ i ∈ schedule, (adds batches)[i]? ≠ some .build := by
    intro i _ h
    rw [hjobs] at h
    cases e : batches[i]? <;> rw [e] at h <;> cases h
  obtain ⟨log, h⟩ := (addInv_init (jobs := adds batches) hr hc).run (nd := nd) (order := order) schedule hnb
  refine ⟨log, by unfold run; simpa using h.content, ?_, ?_⟩
  · intro p hp
    obtain ⟨cs, hcs⟩ := h.known p (by simpa using hp)
    rw [hjobs] at hcs
    by_contra hlt
    rw [List.getElem?_eq_none (by omega)] at hcs
    cases hcs
  · intro i cs hi
    have hok := h.ok i cs (by rw [hjobs, hi]; rfl)
    simp only [List.nil_append] at hok
    have hpre : (logOf i log).flatten <+: (addWrites cs).flatten := by
      obtain ⟨t, ht⟩ := hok.prefix
      exact ⟨t.flatten, by rw [← ht]; simp⟩
    rw [addWrites_flatten] at hpre
    refine ⟨hpre, ?_⟩
    rintro ⟨b, hb⟩
    have e : logOf i log = addWrites cs := by
      unfold run at hb
      rw [hb] at hok
      generalize logOf i log = l at hok
      generalize addWrites cs = w at hok
      cases hok
      rfl
    have := congrArg List.flatten e
    rw [addWrites_flatten] at this
    exact this

/-- C63 (partial): when no batch is longer than the buffer (8192 bytes), then at every point of every schedule (also when processes
crashed) the file holds the old content followed by whole batches of different processes, in some order, and the batches of all
processes that returned are among them. Missing: longer batches, see `C63_counterexample`. -/
theorem C63_serial_partial (root : FPath) (batches : List (List GraphCommand)) (schedule : List Nat) (fs : FS) (c : Text)
    (hr : Ready root fs) (hc : Content root fs c) (hsmall : ∀ cs ∈ batches, (Gcmd.commandsText cs).length ≤ 8192) :
    ∃ serial : List Nat, serial.Nodup ∧ (∀ i ∈ serial, i < batches.length) ∧
      (∀ (i : Nat) (cs : List GraphCommand), batches[i]? = some cs → cs ≠ [] →
        Finished ((run nd order root (adds batches) schedule fs).pc i) → i ∈ serial) ∧
      Content root (run nd order root (adds batches) schedule fs).fs
        (c ++ serial.flatMap fun i => Gcmd.commandsText (batches.getD i [])) := by
  have hjobs : ∀ i : Nat, (adds batches)[i]? = (batches[i]?).map Job.add := by intro i; simp [adds]
  have hnb : ∀ i ∈ schedule, (adds batches)[i]? ≠ some .build := by
    intro i _ h
    rw [hjobs] at h
    cases e : batches[i]? <;> rw [e] at h <;> cases h
  obtain ⟨log, h⟩ := (addInv_init (jobs := adds batches) hr hc).run (nd := nd) (order := order) schedule hnb
  obtain ⟨h1, h2, h3⟩ := small_order h.ok h.known (by
    intro i cs hi
    rw [hjobs] at hi
    cases e : batches[i]? with
    | none => rw [e] at hi; cases hi
    | some cs' =>
      rw [e] at hi
      cases hi
      exact hsmall cs (List.mem_of_getElem? e))
  refine ⟨log.map Prod.fst, by simpa using h1, ?_, ?_, ?_⟩
  · intro i hi
    obtain ⟨p, hp, rfl⟩ := List.mem_map.1 hi
    obtain ⟨cs, hcs, _⟩ := h2 p (by simpa using hp)
    rw [hjobs] at hcs
    by_contra hlt
    rw [List.getElem?_eq_none (by omega)] at hcs
    cases hcs
  · intro i cs hi hne hf
    have := h3 i cs (by rw [hjobs, hi]; rfl) hne hf
    simpa using this
  · have hcont := h.content
    simp only [List.nil_append] at hcont h2
    rw [log_text h2] at hcont
    have e : Gcmd.commandsText ((log.map Prod.fst).flatMap (batchOf (adds batches))) =
        (log.map Prod.fst).flatMap fun i => Gcmd.commandsText (batches.getD i []) := by
      unfold Gcmd.commandsText
      rw [List.flatMap_assoc]
      congr 1
      funext i
      congr 1
      unfold batchOf
      rw [hjobs, List.getD_eq_getElem?_getD]
      cases batches[i]? <;> rfl
    rw [e] at hcont
    exact hcont

/-- C63 (partial), what a user sees: under the same condition, loading at any time gives the old graph with whole batches applied one
after the other, among them those of all processes that returned. -/
theorem C63_loaded_partial (root : FPath) (batches : List (List GraphCommand)) (schedule : List Nat) (fs : FS) (c : Text) (g : DirectedGraph)
    (hr : Ready root fs) (hc : Content root fs c) (ht : NewlineTerminated c) (hg : loadGraph nd root fs = .done (.ok g))
    (hsmall : ∀ cs ∈ batches, (Gcmd.commandsText cs).length ≤ 8192) :
    ∃ serial : List Nat, serial.Nodup ∧ (∀ i ∈ serial, i < batches.length) ∧
      (∀ (i : Nat) (cs : List GraphCommand), batches[i]? = some cs → cs ≠ [] →
        Finished ((run nd order root (adds batches) schedule fs).pc i) → i ∈ serial) ∧
      loadGraph nd root (run nd order root (adds batches) schedule fs).fs =
        .done (.ok (GraphCommand.applyCommands (serial.flatMap fun i => batches.getD i []) g)) := by
  obtain ⟨serial, h1, h2, h3, h4⟩ := C63_serial_partial nd order root batches schedule fs c hr hc hsmall
  refine ⟨serial, h1, h2, h3, (loadGraph_content h4).2 ?_⟩
  have e : (serial.flatMap fun i => Gcmd.commandsText (batches.getD i [])) = Gcmd.commandsText (serial.flatMap fun i => batches.getD i []) := by
    unfold Gcmd.commandsText
    rw [List.flatMap_assoc]
  rw [e]
  exact C14_append_applies nd c g _ ht ((loadGraph_content hc).1 hg)

/-- The large batch of `C63_counterexample`: its text without the last line feed has 8192 bytes. -/
def largeBatch : List GraphCommand := List.replicate 681 (.AddVertex 1) ++ [.AddVertex 1234567890]

theorem largeBatch_writes : addWrites largeBatch =
    [Gcmd.commandsText (List.replicate 681 (.AddVertex 1)) ++ Gcmd.commandIntoLine (.AddVertex 1234567890), ['\n']] := by
  have h : ∀ n, (Gcmd.commandsText (List.replicate n (.AddVertex 1))).length = 12 * n := by
    intro n
    induction n with
    | zero => rfl
    | succ n ih =>
      have e : Gcmd.commandsText (List.replicate (n + 1) (.AddVertex 1)) =
          Gcmd.commandIntoLine (.AddVertex 1) ++ ['\n'] ++ Gcmd.commandsText (List.replicate n (.AddVertex 1)) := by
        simp [Gcmd.commandsText, List.replicate_succ]
      have e2 : (Gcmd.commandIntoLine (.AddVertex 1) ++ ['\n']).length = 12 := by decide +kernel
      rw [e, List.length_append, ih, e2]
      omega
  refine addWrites_exact ?_ ?_
  · have e2 : (Gcmd.commandIntoLine (.AddVertex 1234567890)).length = 20 := by decide +kernel
    rw [h, e2]
    rfl
  · intro e
    have := congrArg List.length e
    rw [List.length_replicate] at this
    cases this

/-- Two additions: the single write of the second comes between the two writes of the first. -/
theorem between {root : FPath} {jobs : List Job} {cs0 cs1 : List GraphCommand} {a b d c : Text} {fs : FS}
    (j0 : jobs[0]? = some (.add cs0)) (j1 : jobs[1]? = some (.add cs1)) (w0 : addWrites cs0 = [a, b]) (w1 : addWrites cs1 = [d])
    (hr : Ready root fs) (hc : Content root fs c) :
    (∀ i < 2, Finished ((run nd order root jobs [0, 0, 0, 0, 1, 1, 1, 1, 0, 0, 1, 0, 1] fs).pc i)) ∧
      Content root (run nd order root jobs [0, 0, 0, 0, 1, 1, 1, 1, 0, 0, 1, 0, 1] fs).fs (c ++ a ++ d ++ b) := by
  unfold run
  simp only [List.foldl_cons, List.foldl_nil]
  have m1 := moved_start (nd := nd) (order := order) (s := ⟨fs, fun _ => .start⟩) j0 hr hc rfl
  have m2 := (moved_dirs (nd := nd) (order := order) j0 m1.ready m1.content m1.here).1
  have m3 := moved_locked (nd := nd) (order := order) j0 m2.ready m2.content m2.here
  have m4 := moved_write (nd := nd) (order := order) j0 m3.ready m3.content (by rw [m3.here, w0])
  have m5 := moved_start (nd := nd) (order := order) j1 m4.ready m4.content (by
    rw [m4.others 1 (by decide), m3.others 1 (by decide), m2.others 1 (by decide), m1.others 1 (by decide)])
  have m6 := (moved_dirs (nd := nd) (order := order) j1 m5.ready m5.content m5.here).1
  have m7 := moved_locked (nd := nd) (order := order) j1 m6.ready m6.content m6.here
  have m8 := moved_write (nd := nd) (order := order) j1 m7.ready m7.content (by rw [m7.here, w1])
  have m9 := moved_write (nd := nd) (order := order) j0 m8.ready m8.content (by
    rw [m8.others 0 (by decide), m7.others 0 (by decide), m6.others 0 (by decide), m5.others 0 (by decide), m4.here])
  have m10 := moved_written (nd := nd) (order := order) j0 m9.ready m9.content m9.here
  have m11 := moved_written (nd := nd) (order := order) j1 m10.ready m10.content (by
    rw [m10.others 1 (by decide), m9.others 1 (by decide), m8.here])
  obtain ⟨b0, m12⟩ := moved_unlock (nd := nd) (order := order) j0 m11.ready m11.content (by
    rw [m11.others 0 (by decide), m10.here])
  obtain ⟨b1, m13⟩ := moved_unlock (nd := nd) (order := order) j1 m12.ready m12.content (by
    rw [m12.others 1 (by decide), m11.here])
  refine ⟨?_, m13.content⟩
  intro i hi
  have : i = 0 ∨ i = 1 := by omega
  rcases this with rfl | rfl
  · exact ⟨b0, by rw [m13.others 0 (by decide), m12.here]⟩
  · exact ⟨b1, m13.here⟩

theorem load_broken {root : FPath} {fs : FS} (cs : List GraphCommand)
    (hc : Content root fs ([] ++ (Gcmd.commandsText cs ++ Gcmd.commandIntoLine (.AddVertex 1234567890)) ++
      Gcmd.commandsText [.AddVertex 2] ++ ['\n'])) :
    loadGraph nd root fs = .done (.error (.parse (.atLine (cs.length + 1) "AddVertex 1234567890AddVertex 2".toList))) := by
  have hl : lines ([] ++ (Gcmd.commandsText cs ++ Gcmd.commandIntoLine (.AddVertex 1234567890)) ++
      Gcmd.commandsText [.AddVertex 2] ++ ['\n']) =
      cs.map Gcmd.commandIntoLine ++ "AddVertex 1234567890AddVertex 2".toList :: [[]] := by
    have e : [] ++ (Gcmd.commandsText cs ++ Gcmd.commandIntoLine (.AddVertex 1234567890)) ++ Gcmd.commandsText [.AddVertex 2] ++ ['\n'] =
        Gcmd.commandsText cs ++ (Gcmd.commandIntoLine (.AddVertex 1234567890) ++ Gcmd.commandsText [.AddVertex 2] ++ ['\n']) := by
      simp only [List.nil_append, List.append_assoc]
    rw [e, lines_append (terminated_commandsText _), lines_commandsText]
    congr 1
  have hp : Gcmd.parseLine nd "AddVertex 1234567890AddVertex 2".toList = .done (.error "AddVertex 1234567890AddVertex 2".toList) := rfl
  have h := (readAsCommands_bad hl (readsAs_commandLines nd cs) (active_iff.1 (by decide +kernel))).2 _ hp
  rw [List.length_map] at h
  unfold Content at hc
  unfold loadGraph
  rw [hc]
  dsimp only
  unfold Gcmd.read Format.read
  rw [h]
  rfl

/-- C63 is false: two concurrent additions, one of them longer than 8192 bytes, both run to their end, and the stored graph cannot be
loaded any more: the other batch came between a line and its line feed. -/
theorem C63_counterexample :
    ∃ schedule : List Nat,
      (∀ i < 2, Finished ((run nd order [['d']] (adds [largeBatch, [.AddVertex 2]]) schedule (sampleFS [])).pc i)) ∧
      loadGraph nd [['d']] (run nd order [['d']] (adds [largeBatch, [.AddVertex 2]]) schedule (sampleFS [])).fs =
        .done (.error (.parse (.atLine 682 "AddVertex 1234567890AddVertex 2".toList))) := by
  have hsmall : addWrites [.AddVertex 2] = [Gcmd.commandsText [.AddVertex 2]] := addWrites_small (by decide +kernel)
  have h := between nd order (root := [['d']]) (jobs := adds [largeBatch, [.AddVertex 2]]) (by unfold adds; rw [List.map_cons]; exact List.getElem?_cons_zero) (by unfold adds; rw [List.map_cons]; exact List.getElem?_cons_succ) largeBatch_writes hsmall
    (sampleFS_ready []) (c := []) rfl
  have hlen : (List.replicate 681 (GraphCommand.AddVertex 1)).length + 1 = 682 := by rw [List.length_replicate]
  have h2 := load_broken nd _ h.2
  rw [hlen] at h2
  exact ⟨_, h.1, h2⟩

/-- `C63_interleaving`, `C63_serial_partial` and `C63_loaded_partial`: two additions to an empty graph, in any schedule. -/
example (schedule : List Nat) :
    (∃ log : List (Nat × Text), Content [['d']] (run nd order [['d']] (adds [[.AddVertex 2], [.AddEdge 3 4]]) schedule (sampleFS [])).fs
      ([] ++ (log.map Prod.snd).flatten)) ∧
    (∃ serial : List Nat, serial.Nodup ∧ Content [['d']] (run nd order [['d']] (adds [[.AddVertex 2], [.AddEdge 3 4]]) schedule (sampleFS [])).fs
      ([] ++ serial.flatMap fun i => Gcmd.commandsText ([[GraphCommand.AddVertex 2], [.AddEdge 3 4]].getD i []))) ∧
    ∃ serial : List Nat, loadGraph nd [['d']] (run nd order [['d']] (adds [[.AddVertex 2], [.AddEdge 3 4]]) schedule (sampleFS [])).fs =
      .done (.ok (GraphCommand.applyCommands (serial.flatMap fun i => [[GraphCommand.AddVertex 2], [.AddEdge 3 4]].getD i []) .new)) := by
  obtain ⟨log, h1, _⟩ := C63_interleaving nd order [['d']] [[.AddVertex 2], [.AddEdge 3 4]] schedule _ [] (sampleFS_ready _) rfl
  obtain ⟨s, h2, _, _, h3⟩ := C63_serial_partial nd order [['d']] [[.AddVertex 2], [.AddEdge 3 4]] schedule _ [] (sampleFS_ready _) rfl (by decide)
  obtain ⟨s', _, _, _, h4⟩ := C63_loaded_partial nd order [['d']] [[.AddVertex 2], [.AddEdge 3 4]] schedule _ [] .new (sampleFS_ready _) rfl
    (.inl rfl) (load_sample nd []) (by decide)
  exact ⟨⟨log, h1⟩, ⟨s, h2, h3⟩, s', h4⟩

example : Ready [['d']] (sampleFS []) ∧ Content [['d']] (sampleFS []) [] ∧ NewlineTerminated [] ∧
    (Gcmd.commandsText [.AddVertex 2, .AddEdge 3 4]).length ≤ 8192 :=
  ⟨sampleFS_ready [], rfl, .inl rfl, by decide +kernel⟩
/-- Two small batches in a row of steps where the second process overtakes the first. -/
example : ∃ ok0 ok1, let s := run nd order [['d']] (adds [[.AddVertex 2], [.AddEdge 3 4]]) [0, 0, 1, 1, 1, 1, 0, 0, 0, 1, 0, 1] (sampleFS [])
    s.pc 0 = .finished ok0 ∧ s.pc 1 = .finished ok1 ∧ s.fs (commandPath [['d']]) = some (.file "AddEdge 3 4\nAddVertex 2\n".toList) := by
  refine ⟨true, false, ?_⟩
  exact ⟨rfl, rfl, rfl⟩

/-! ### C61 -/

/-- C61 is false, in the strongest way: any number of processes can be in the block of `with_lock` at the same time. -/
theorem C61_counterexample (root : FPath) (batches : List (List GraphCommand)) (fs : FS) (hr : Ready root fs) :
    ∃ schedule, ∀ i < batches.length, InBlock ((run nd order root (adds batches) schedule fs).pc i) := by
  obtain ⟨c, hc⟩ := hr.2.1
  have key : ∀ n ≤ batches.length, ∃ schedule, ∀ s, s = run nd order root (adds batches) schedule fs →
      Ready root s.fs ∧ Content root s.fs c ∧ (∀ i < n, s.pc i = .locked) ∧ ∀ i, n ≤ i → s.pc i = .start := by
    intro n hn
    induction n with
    | zero => exact ⟨[], by rintro _ rfl; exact ⟨hr, hc, by simp, fun _ _ => rfl⟩⟩
    | succ n ih =>
      obtain ⟨schedule, h⟩ := ih (by omega)
      obtain ⟨h1, h2, h3, h4⟩ := h _ rfl
      have hj : (adds batches)[n]? = some (.add batches[n]) := by simp [adds]
      have m1 := moved_start (nd := nd) (order := order) hj h1 h2 (h4 n (by omega))
      have m2 := (moved_dirs (nd := nd) (order := order) hj m1.ready m1.content m1.here).1
      refine ⟨schedule ++ [n, n], ?_⟩
      rintro _ rfl
      have e : run nd order root (adds batches) (schedule ++ [n, n]) fs =
          step nd order root (adds batches) (step nd order root (adds batches) (run nd order root (adds batches) schedule fs) n) n := by
        unfold run
        rw [List.foldl_append]
        rfl
      rw [e]
      refine ⟨m2.ready, m2.content, ?_, ?_⟩
      · intro i hi
        by_cases hin : i = n
        · rw [hin]; exact m2.here
        · rw [m2.others i hin, m1.others i hin]
          exact h3 i (by omega)
      · intro i hi
        rw [m2.others i (by omega), m1.others i (by omega)]
        exact h4 i (by omega)
  obtain ⟨schedule, h⟩ := key _ (Nat.le_refl _)
  exact ⟨schedule, fun i hi => .inl ((h _ rfl).2.2.1 i hi)⟩

/-- C61: no process ever waits for the lock. Whatever the others are doing, and also if a lock file was left behind, two steps after its
start a process is in the block. -/
theorem C61_counterexample_never_waits (root : FPath) (batches : List (List GraphCommand)) (schedule : List Nat) (fs : FS)
    (hr : Ready root fs) (i : Nat) (hi : i < batches.length) (hs : (run nd order root (adds batches) schedule fs).pc i = .start) :
    InBlock ((run nd order root (adds batches) (schedule ++ [i, i]) fs).pc i) := by
  obtain ⟨c, hc⟩ := hr.2.1
  have hnb : ∀ i ∈ schedule, (adds batches)[i]? ≠ some .build := by
    intro i _ h
    simp only [adds, List.getElem?_map, Option.map_eq_some_iff] at h
    obtain ⟨_, _, h⟩ := h
    cases h
  obtain ⟨log, h⟩ := (addInv_init (jobs := adds batches) hr hc).run (nd := nd) (order := order) schedule hnb
  have hj : (adds batches)[i]? = some (.add batches[i]) := by simp [adds]
  have m1 := moved_start (nd := nd) (order := order) hj h.ready h.content hs
  have m2 := (moved_dirs (nd := nd) (order := order) hj m1.ready m1.content m1.here).1
  have e : run nd order root (adds batches) (schedule ++ [i, i]) fs =
      step nd order root (adds batches) (step nd order root (adds batches) (run nd order root (adds batches) schedule fs) i) i := by
    unfold run
    rw [List.foldl_append]
    rfl
  rw [e]
  exact .inl m2.here

/-- C61 (partial): as long as no process returned, the lock file is there whenever a process is in the block, for every schedule.
Missing: exclusion (`C61_counterexample`), and the lock file once another process returned (`C61_counterexample_released`). -/
theorem C61_lock_visible_partial (root : FPath) (batches : List (List GraphCommand)) (schedule : List Nat) (fs : FS)
    (hr : Ready root fs) (i : Nat)
    (hin : InBlock ((run nd order root (adds batches) schedule fs).pc i))
    (hnone : ∀ j, ¬ Finished ((run nd order root (adds batches) schedule fs).pc j)) :
    isLocked root (run nd order root (adds batches) schedule fs).fs = true := by
  obtain ⟨c, hc⟩ := hr.2.1
  have hnb : ∀ i ∈ schedule, (adds batches)[i]? ≠ some .build := by
    intro i _ h
    simp only [adds, List.getElem?_map, Option.map_eq_some_iff] at h
    obtain ⟨_, _, h⟩ := h
    cases h
  have hnq : ∀ i ∈ schedule, (adds batches)[i]? ≠ some .build ∧ (adds batches)[i]? ≠ some .query ∧ (adds batches)[i]? ≠ some .init := by
    refine fun i hi => ⟨hnb i hi, fun h => ?_, fun h => ?_⟩ <;>
    · simp only [adds, List.getElem?_map, Option.map_eq_some_iff] at h
      obtain ⟨_, _, h⟩ := h
      cases h
  have hinv := LockInv.run (nd := nd) (order := order) schedule hnq (addInv_init (jobs := adds batches) hr hc)
    (by rintro ⟨j, (h | ⟨_, h⟩) | ⟨_, h⟩⟩ <;> cases h)
  rcases hinv ⟨i, .inl hin⟩ with ⟨j, hj⟩ | ⟨t, ht⟩
  · exact absurd hj (hnone j)
  · unfold isLocked run
    rw [ht]
    rfl

/-- `C61_lock_visible_partial` while two additions run. -/
example : isLocked [['d']] (run nd order [['d']] (adds [[.AddVertex 2], [.AddVertex 3]]) [0, 0, 1, 1, 0] (sampleFS [])).fs = true := by
  refine C61_lock_visible_partial nd order [['d']] _ _ _ (sampleFS_ready _) 0 (.inr ⟨_, rfl⟩) ?_
  rintro (_ | _ | j) ⟨ok, h⟩ <;> cases h

example : let s := run nd order [['d']] (adds [[.AddVertex 2], [.AddVertex 3]]) [0, 0, 1, 1, 0] (sampleFS [])
    InBlock (s.pc 0) ∧ InBlock (s.pc 1) ∧ (∀ j, ¬ Finished (s.pc j)) ∧ isLocked [['d']] s.fs = true := by
  refine ⟨.inr ⟨_, rfl⟩, .inl rfl, ?_, rfl⟩
  rintro (_ | _ | j) ⟨ok, h⟩ <;> cases h

/-- C61: a process can be in the block although nobody holds the lock any more: the first process to return removes the lock file of all.
The other one then stores its batch and reports an error. -/
theorem C61_counterexample_released :
    ∃ schedule, ∀ s, s = run nd order [['d']] (adds [[.AddVertex 2], [.AddVertex 3]]) schedule (sampleFS []) →
      InBlock (s.pc 0) ∧ s.pc 1 = .finished true ∧ isLocked [['d']] s.fs = false ∧
      ∃ s', s' = [0, 0, 0].foldl (step nd order [['d']] (adds [[.AddVertex 2], [.AddVertex 3]])) s ∧
        s'.pc 0 = .finished false ∧ Content [['d']] s'.fs "AddVertex 3\nAddVertex 2\n".toList := by
  refine ⟨[0, 0, 0, 1, 1, 1, 1, 1, 1], ?_⟩
  rintro _ rfl
  exact ⟨.inr ⟨_, rfl⟩, rfl, rfl, _, rfl, rfl, rfl⟩

/-! ### C70 -/

/-- C70 is false: an addition made while gc-build runs is lost although both processes report success. -/
theorem C70_counterexample (ho : ∀ i, IsOrder (order i)) :
    ∃ schedule, ∀ s, s = run nd order [['d']] [.build, .add [.AddVertex 2]] schedule (sampleFS "AddVertex 1\n".toList) →
      s.pc 0 = .finished true ∧ s.pc 1 = .finished true ∧
      ∃ g, loadGraph nd [['d']] s.fs = .done (.ok g) ∧ g.containsVertex 2 = false := by
  refine ⟨[0, 0, 0] ++ [1, 1, 1, 1, 1, 1, 0, 0, 0], ?_⟩
  have e0 : order 0 ⟨[(1, [])]⟩ = ⟨[(1, [])]⟩ := by
    have := ho 0 ⟨[(1, [])]⟩
    rw [List.singleton_perm] at this
    cases h : order 0 ⟨[(1, [])]⟩ with
    | mk m => rw [h] at this; exact congrArg DirectedGraph.mk this.symm
  have e : ([0, 0, 0].foldl (step nd order [['d']] [.build, .add [.AddVertex 2]]) ⟨sampleFS "AddVertex 1\n".toList, fun _ => .start⟩) =
      ⟨sampleFS "AddVertex 1\n".toList, fun j => if j = 0 then .loaded (order 0 ⟨[(1, [])]⟩) else if j = 0 then .reading ⟨[], "AddVertex 1\n".toList, 12⟩ else if j = 0 then .reading ⟨[], [], 0⟩ else .start⟩ := rfl
  rw [e0] at e
  unfold run
  rw [List.foldl_append, e]
  rintro _ rfl
  exact ⟨rfl, rfl, ⟨[(1, [])]⟩, rfl, rfl⟩

/-- C70 (partial): nothing is lost if gc-build is not interrupted once it has loaded the graph: for additions of at most 8192 bytes, in
every schedule in which the steps of gc-build from its last `read` on are next to each other, the stored graph is the old one with whole
batches applied one after the other, among them those of all processes that returned. Additions may be made while gc-build reads, and an
addition may be anywhere in its run while gc-build writes.
Missing: steps of additions between the last `read` and the last `write` of gc-build (`C70_counterexample`). -/
theorem C70_undisturbed_partial (ho : ∀ i, IsOrder (order i)) (root : FPath) (jobs : List Job) (b : Nat) (hb : jobs[b]? = some .build)
    (hone : ∀ i, jobs[i]? = some .build → i = b)
    (hsmall : ∀ (i : Nat) (cs : List GraphCommand), jobs[i]? = some (.add cs) → (Gcmd.commandsText cs).length ≤ 8192)
    (before after : List Nat) (n : Nat) (h2 : b ∉ after) (fs : FS) (c : Text) (g : DirectedGraph)
    (hr : Ready root fs) (hc : Content root fs c) (ht : NewlineTerminated c) (hg : loadGraph nd root fs = .done (.ok g))
    (h1 : NotLoaded ((run nd order root jobs before fs).pc b))
    (hf : Finished ((run nd order root jobs (before ++ List.replicate n b ++ after) fs).pc b)) :
    ∃ (serial : List Nat) (g' : DirectedGraph), serial.Nodup ∧
      (∀ (i : Nat) (cs : List GraphCommand), jobs[i]? = some (.add cs) → cs ≠ [] →
        Finished ((run nd order root jobs (before ++ List.replicate n b ++ after) fs).pc i) → i ∈ serial) ∧
      loadGraph nd root (run nd order root jobs (before ++ List.replicate n b ++ after) fs).fs = .done (.ok g') ∧
      SameGraph g' (GraphCommand.applyCommands (serial.flatMap (batchOf jobs)) g) := by
  unfold run at *
  rw [List.foldl_append, List.foldl_append] at *
  obtain ⟨log1, r1⟩ : ∃ log1, ReadInv nd root jobs c (fun _ => 0) log1 (before.foldl (step nd order root jobs) ⟨fs, fun _ => .start⟩) := by
    rcases (readInv_init (nd := nd) (jobs := jobs) hr hc).run (order := order) hsmall ht before with ⟨b', hb', hl⟩ | ⟨log1, h⟩
    · rw [hone b' hb'] at hl
      exact absurd h1 hl
    · exact ⟨log1, by simpa using h⟩
  have i1 := r1.add
  have t1 := i1.terminated hsmall ht
  have p1 := r1.build b hb
  generalize before.foldl (step nd order root jobs) ⟨fs, fun _ => .start⟩ = s1 at *
  have ok1 := i1.ok
  have known1 := i1.known
  rw [List.nil_append] at ok1 known1
  obtain ⟨o1, o2, o3⟩ := small_order ok1 known1 hsmall
  have c1 := i1.content
  rw [log_text o2] at c1
  have e1 : logText log1 = _ := log_text o2
  rw [e1] at t1
  have l1 : loadGraph nd root s1.fs = .done (.ok (GraphCommand.applyCommands ((log1.map Prod.fst).flatMap (batchOf jobs)) g)) :=
    (loadGraph_content c1).2 (C14_append_applies nd c g _ ht ((loadGraph_content hc).1 hg))
  obtain ⟨hg1, _⟩ := loadGraph_built l1
  obtain ⟨hgb, _⟩ := loadGraph_built hg
  generalize hg1' : GraphCommand.applyCommands ((log1.map Prod.fst).flatMap (batchOf jobs)) g = g1 at *
  obtain ⟨b1, b2⟩ := build_alone (nd := nd) (order := order) (jobs := jobs) hb c1 t1 l1 n (s := s1) (by
    generalize s1.pc b = pc at p1 h1
    cases p1 with
    | start => exact .start
    | reading h => rw [e1] at h; exact .reading h
    | answered _ _ => rcases h1 with h | ⟨_, h⟩ <;> cases h)
  have p3 := pc_other (nd := nd) (order := order) (root := root) (jobs := jobs) after h2
    ((List.replicate n b).foldl (step nd order root jobs) s1)
  rw [p3] at hf
  generalize (List.replicate n b).foldl (step nd order root jobs) s1 = s2 at *
  have c2 : s2.fs = s1.fs.set (commandPath root) (some (.file (Gcmd.save (order b g1)))) := by
    obtain ⟨ok, hf⟩ := hf
    rw [hf] at b1
    generalize s2.fs = f at b1
    cases b1
    rfl
  have i2 : AddInv root jobs (Gcmd.save (order b g1)) log1 [] s2 := by
    refine ⟨?_, ?_, ?_, by simpa using i1.known⟩
    · rw [c2]; exact ready_set_command i1.ready _
    · rw [c2]
      simp only [List.map_nil, List.flatten_nil, List.append_nil]
      exact FS.set_self _ _ _
    · intro i cs hi
      rw [b2 i (by rintro rfl; rw [hb] at hi; cases hi), List.append_nil]
      exact ok1 i cs hi
  obtain ⟨log3, i3⟩ := i2.run (nd := nd) (order := order) after (fun i hi h => h2 (hone i h ▸ hi))
  simp only [List.nil_append] at i3
  generalize after.foldl (step nd order root jobs) s2 = s3 at *
  obtain ⟨q1, q2, q3⟩ := small_order i3.ok i3.known hsmall
  have c3 := i3.content
  rw [log_text (fun p hp => q2 p (by simp [hp]))] at c3
  have hb' : Built (order b g1) := hg1.reorder (ho b g1)
  obtain ⟨g2, e1, e2, e3⟩ := C09_gcmd_round_trip nd (order b g1) hb'
  refine ⟨(log1 ++ log3).map Prod.fst, GraphCommand.applyCommands ((log3.map Prod.fst).flatMap (batchOf jobs)) g2, q1, q3, ?_, ?_⟩
  · exact (loadGraph_content c3).2 (C14_append_applies nd _ g2 _ (C14_saved_files_terminated _).1 e1)
  · rw [sameGraph_iff] at e3 ⊢
    rw [List.map_append, List.flatMap_append, toSet_applyCommands e2.wf, toSet_applyCommands hgb.wf, run_append,
      ← toSet_applyCommands hgb.wf, hg1', e3]
    exact congrArg (fun G => SetGraph.run G _) (toSet_perm hg1.wf (ho b g1))

theorem finished_of {pc : Pc} (h : (pc matches .finished _) = true) : Finished pc := by
  cases pc <;> first | exact ⟨_, rfl⟩ | cases h

theorem notLoaded_of {pc : Pc} (h : (pc matches .start | .reading _) = true) : NotLoaded pc := by
  cases pc <;> first | exact .inl rfl | exact .inr ⟨_, rfl⟩ | cases h

theorem answered_of {pc : Pc} (h : (pc matches .answered _) = true) : ∃ res, pc = .answered res := by
  cases pc <;> first | exact ⟨_, rfl⟩ | cases h

theorem start_of {pc : Pc} (h : (pc matches .start) = true) : pc = .start := by
  cases pc <;> first | rfl | cases h

/-- `C70_undisturbed_partial` for a gc-build that runs without interruption once it began to load, between two additions. -/
example : ∃ (serial : List Nat) (g' : DirectedGraph), serial.Nodup ∧ 2 ∈ serial ∧
    loadGraph (fun _ => false) [['d']] (run (fun _ => false) (fun _ => id) [['d']] [.add [.AddVertex 2], .build, .add [.AddEdge 1 3]]
      ([1, 1, 0, 0, 0, 0] ++ List.replicate 6 1 ++ [2, 2, 2, 2, 0, 0, 2, 2]) (sampleFS "AddVertex 1\n".toList)).fs = .done (.ok g') ∧
    SameGraph g' (GraphCommand.applyCommands (serial.flatMap (batchOf [.add [.AddVertex 2], .build, .add [.AddEdge 1 3]]))
      (GraphCommand.applyCommands [.AddVertex 1] .new)) := by
  obtain ⟨s, g', h1, h2, h3, h4⟩ := C70_undisturbed_partial (fun _ => false) (fun _ => id) (fun _ _ => .refl _) [['d']]
    [.add [.AddVertex 2], .build, .add [.AddEdge 1 3]] 1 rfl
    (by rintro (_ | _ | _ | i) h <;> first | rfl | simp at h)
    (by rintro (_ | _ | _ | i) cs h <;> simp at h <;> subst h <;> decide)
    [1, 1, 0, 0, 0, 0] [2, 2, 2, 2, 0, 0, 2, 2] 6 (by decide) (sampleFS "AddVertex 1\n".toList) _ _ (sampleFS_ready _) rfl (.inr (by decide))
    (load_sample _ [.AddVertex 1]) (notLoaded_of (by decide +kernel)) (finished_of (by decide +kernel))
  exact ⟨s, g', h1, h2 2 _ rfl (by decide) (finished_of (by decide +kernel)), h3, h4⟩

/-- gc-build (process 1) makes its first `read`, then one addition stores its batch and is not finished, then gc-build goes on. -/
example : let jobs : List Job := [.add [.AddVertex 2], .build, .add [.AddEdge 1 3]]
    let s1 := run (fun _ => false) (fun _ => id) [['d']] jobs [1, 1, 0, 0, 0, 0] (sampleFS "AddVertex 1\n".toList)
    let s := run (fun _ => false) (fun _ => id) [['d']] jobs ([1, 1, 0, 0, 0, 0] ++ List.replicate 6 1 ++ [2, 2, 2, 2, 0, 0, 2, 2]) (sampleFS "AddVertex 1\n".toList)
    (s1.pc 1 matches .reading _) ∧ s1.fs (commandPath [['d']]) = some (.file "AddVertex 1\nAddVertex 2\n".toList) ∧
      (s.pc 1 matches .finished true) ∧ (s.pc 2 matches .finished _) ∧
      s.fs (commandPath [['d']]) = some (.file "AddVertex 1\nAddVertex 2\nAddEdge 1 3\n".toList) := by
  decide +kernel

/-! ### C78 -/

/-- The small-step model of reading agrees with `loadGraph`: a query that runs alone loads what `loadGraph` computes, and changes nothing,
on every file system. -/
theorem C78_alone (root : FPath) (fs : FS) :
    ∃ n, ∀ m, n ≤ m →
      (run nd order root [.query] (List.replicate m 0) fs).fs = fs ∧
      (run nd order root [.query] (List.replicate m 0) fs).pc 0 = .answered (loadGraph nd root fs) := by
  have key : ∃ n, ∀ m, n ≤ m → iterQuery nd root fs m .start = .answered (loadGraph nd root fs) := by
    cases e : fs (commandPath root) with
    | none =>
      refine ⟨1, fun m hm => ?_⟩
      obtain ⟨m, rfl⟩ : ∃ k, m = k + 1 := ⟨m - 1, by omega⟩
      show iterQuery nd root fs m (stepQuery nd root .start fs).2 = _
      simp only [stepQuery, stepOpen, loadGraph, e]
      exact iterQuery_answered _ _ _ _ _
    | some node =>
      cases node with
      | dir =>
        refine ⟨1, fun m hm => ?_⟩
        obtain ⟨m, rfl⟩ : ∃ k, m = k + 1 := ⟨m - 1, by omega⟩
        show iterQuery nd root fs m (stepQuery nd root .start fs).2 = _
        simp only [stepQuery, stepOpen, loadGraph, e]
        exact iterQuery_answered _ _ _ _ _
      | file c =>
        refine ⟨c.length + 4, fun m hm => ?_⟩
        obtain ⟨m, rfl⟩ : ∃ k, m = k + 1 := ⟨m - 1, by omega⟩
        have hc : Content root fs c := e
        rw [loadGraph_lines hc]
        show iterQuery nd root fs m (stepQuery nd root .start fs).2 = _
        simp only [stepQuery, stepOpen_content hc]
        exact iterQuery_reading hc m (.new c) (by simp only; omega)
  obtain ⟨n, h⟩ := key
  refine ⟨n, fun m hm => ?_⟩
  obtain ⟨h1, h2⟩ := run_query_alone nd order root m ⟨fs, fun _ => .start⟩
  exact ⟨h1, h2.trans (h m hm)⟩

theorem load_log {nd : Char → Bool} {root : FPath} {jobs : List Job} {fs : FS} {c : Text} {g : DirectedGraph}
    (hc : Content root fs c) (ht : NewlineTerminated c) (hg : loadGraph nd root fs = .done (.ok g)) {log : List (Nat × Text)}
    (hlog : ∀ p ∈ log, ∃ cs, jobs[p.1]? = some (.add cs) ∧ p.2 = Gcmd.commandsText cs) :
    loadLines nd (lines (c ++ logText log)) =
      .done (.ok (GraphCommand.applyCommands ((log.map Prod.fst).flatMap (batchOf jobs)) g)) := by
  have hx : Content root (fs.set (commandPath root) (some (.file (c ++ logText log)))) (c ++ logText log) := FS.set_self _ _ _
  rw [← loadGraph_lines hx]
  refine (loadGraph_content hx).2 ?_
  have e : logText log = _ := log_text hlog
  rw [e]
  exact C14_append_applies nd c g _ ht ((loadGraph_content hc).1 hg)

/-- C78: while any number of processes add batches of at most 8192 bytes and any number of processes read, for every schedule: a query
loads the old graph with whole batches applied one after the other (`serial`), among them those of all processes that returned before the
query began. The graph stored at the end is that graph with further batches (`rest`) applied. -/
theorem C78_consistent (root : FPath) (jobs : List Job) (hnb : ∀ j : Nat, jobs[j]? ≠ some .build)
    (hsmall : ∀ (j : Nat) (cs : List GraphCommand), jobs[j]? = some (.add cs) → (Gcmd.commandsText cs).length ≤ 8192)
    (before after : List Nat) (fs : FS) (c : Text) (g : DirectedGraph)
    (hr : Ready root fs) (hc : Content root fs c) (ht : NewlineTerminated c) (hg : loadGraph nd root fs = .done (.ok g))
    (i : Nat) (hi : jobs[i]? = some .query) (hstart : (run nd order root jobs before fs).pc i = .start)
    (res : Run (Except LoadError DirectedGraph)) (hres : (run nd order root jobs (before ++ after) fs).pc i = .answered res) :
    ∃ serial rest : List Nat, (serial ++ rest).Nodup ∧
      (∀ j ∈ serial ++ rest, ∃ cs, jobs[j]? = some (.add cs)) ∧
      (∀ (j : Nat) (cs : List GraphCommand), jobs[j]? = some (.add cs) → cs ≠ [] →
        Finished ((run nd order root jobs before fs).pc j) → j ∈ serial) ∧
      (∀ (j : Nat) (cs : List GraphCommand), jobs[j]? = some (.add cs) → cs ≠ [] →
        Finished ((run nd order root jobs (before ++ after) fs).pc j) → j ∈ serial ++ rest) ∧
      res = .done (.ok (GraphCommand.applyCommands (serial.flatMap (batchOf jobs)) g)) ∧
      loadGraph nd root (run nd order root jobs (before ++ after) fs).fs =
        .done (.ok (GraphCommand.applyCommands (rest.flatMap (batchOf jobs))
          (GraphCommand.applyCommands (serial.flatMap (batchOf jobs)) g))) := by
  obtain ⟨k, log1, log2, h1, h2, h3, h4, h5⟩ := reader_run hnb hsmall before after hr hc ht i hi hstart res hres
  rw [h5]
  obtain ⟨o1, o2, o3⟩ := small_order h1.add.ok h1.add.known hsmall
  obtain ⟨q1, q2, q3⟩ := small_order h2.ok h2.known hsmall
  have key := fun log hlog => load_log (nd := nd) (jobs := jobs) hc ht hg (log := log) hlog
  simp only [List.nil_append] at *
  refine ⟨((log1 ++ log2).take k).map Prod.fst, ((log1 ++ log2).drop k).map Prod.fst, ?_, ?_, ?_, ?_, ?_, ?_⟩
  · rw [← List.map_append, List.take_append_drop]
    exact q1
  · rw [← List.map_append, List.take_append_drop]
    intro j hj
    obtain ⟨p, hp, rfl⟩ := List.mem_map.1 hj
    obtain ⟨cs, hcs, _⟩ := q2 p hp
    exact ⟨cs, hcs⟩
  · intro j cs hj hne hf
    have hm := o3 j cs hj hne hf
    have hpre : log1 <+: (log1 ++ log2).take k := by
      rw [List.take_append, List.take_of_length_le h3]
      exact List.prefix_append _ _
    exact (hpre.map Prod.fst).subset hm
  · intro j cs hj hne hf
    rw [← List.map_append, List.take_append_drop]
    exact q3 j cs hj hne hf
  · exact key _ (fun p hp => q2 p (List.mem_of_mem_take hp))
  · rw [loadGraph_lines h2.content]
    have := key _ q2
    unfold logText at this
    rw [this]
    have e : GraphCommand.applyCommands (((log1 ++ log2).drop k).map Prod.fst |>.flatMap (batchOf jobs))
        (GraphCommand.applyCommands (((log1 ++ log2).take k).map Prod.fst |>.flatMap (batchOf jobs)) g) =
        GraphCommand.applyCommands (((log1 ++ log2).map Prod.fst).flatMap (batchOf jobs)) g := by
      unfold GraphCommand.applyCommands
      rw [← List.foldl_append, ← List.flatMap_append, ← List.map_append, List.take_append_drop]
    rw [e]

/-- C78: a query that begins after another one was answered sees everything the first one saw: its graph is that of the first with further
batches applied. -/
theorem C78_monotone (root : FPath) (jobs : List Job) (hnb : ∀ j : Nat, jobs[j]? ≠ some .build)
    (hsmall : ∀ (j : Nat) (cs : List GraphCommand), jobs[j]? = some (.add cs) → (Gcmd.commandsText cs).length ≤ 8192)
    (before after : List Nat) (fs : FS) (c : Text) (g : DirectedGraph)
    (hr : Ready root fs) (hc : Content root fs c) (ht : NewlineTerminated c) (hg : loadGraph nd root fs = .done (.ok g))
    (i j : Nat) (hi : jobs[i]? = some .query) (hj : jobs[j]? = some .query)
    (g1 : DirectedGraph) (h1 : (run nd order root jobs before fs).pc i = .answered (.done (.ok g1)))
    (hstart : (run nd order root jobs before fs).pc j = .start)
    (res : Run (Except LoadError DirectedGraph)) (hres : (run nd order root jobs (before ++ after) fs).pc j = .answered res) :
    ∃ serial : List Nat, (∀ l ∈ serial, ∃ cs, jobs[l]? = some (.add cs)) ∧
      res = .done (.ok (GraphCommand.applyCommands (serial.flatMap (batchOf jobs)) g1)) := by
  obtain ⟨k, log1, log2, r1, r2, h3, h4, h5⟩ := reader_run hnb hsmall before after hr hc ht j hj hstart res hres
  obtain ⟨q1, q2, q3⟩ := small_order r2.ok r2.known hsmall
  have hq := r1.query i hi
  rw [h1] at hq
  simp only [List.nil_append] at *
  generalize hres1 : (Run.done (Except.ok g1) : Run (Except LoadError DirectedGraph)) = res1 at hq
  cases hq with
  | @answered k1 _ hk1 =>
    have e1 : log1.take k1 = (log1 ++ log2).take k1 := by rw [List.take_append_of_le_length hk1]
    rw [e1, load_log (jobs := jobs) hc ht hg (fun p hp => q2 p (List.mem_of_mem_take hp))] at hres1
    injection hres1 with hres1
    injection hres1 with hres1
    rw [h5, load_log (jobs := jobs) hc ht hg (fun p hp => q2 p (List.mem_of_mem_take hp)), hres1]
    have e2 : (log1 ++ log2).take k = (log1 ++ log2).take k1 ++ ((log1 ++ log2).take k).drop k1 := by
      have := List.take_append_drop k1 ((log1 ++ log2).take k)
      rw [List.take_take, Nat.min_eq_left (by omega)] at this
      exact this.symm
    refine ⟨(((log1 ++ log2).take k).drop k1).map Prod.fst, ?_, ?_⟩
    · intro l hl
      obtain ⟨p, hp, rfl⟩ := List.mem_map.1 hl
      obtain ⟨cs, hcs, _⟩ := q2 p (List.mem_of_mem_take (List.mem_of_mem_drop hp))
      exact ⟨cs, hcs⟩
    · generalize ((log1 ++ log2).take k).drop k1 = d at e2 ⊢
      rw [e2]
      unfold GraphCommand.applyCommands
      rw [List.map_append, List.flatMap_append, List.foldl_append]

/-- C78: a query is answered after as many steps as the stored file has characters at the end, plus 3, in every schedule. -/
theorem C78_answers (root : FPath) (jobs : List Job) (hnb : ∀ j : Nat, jobs[j]? ≠ some .build)
    (hsmall : ∀ (j : Nat) (cs : List GraphCommand), jobs[j]? = some (.add cs) → (Gcmd.commandsText cs).length ≤ 8192)
    (schedule : List Nat) (fs : FS) (c : Text) (hr : Ready root fs) (hc : Content root fs c) (ht : NewlineTerminated c)
    (i : Nat) (hi : jobs[i]? = some .query) (c' : Text) (hc' : Content root (run nd order root jobs schedule fs).fs c')
    (hn : c'.length + 3 ≤ schedule.count i) :
    ∃ res, (run nd order root jobs schedule fs).pc i = .answered res := by
  have h0 := readInv_init (nd := nd) (jobs := jobs) hr hc
  rcases reader_progress (order := order) hnb hsmall ht i hi schedule h0 with h | h
  · exact h
  · exfalso
    rcases h0.run (order := order) hsmall ht schedule with ⟨b, hb, _⟩ | ⟨log, h1⟩
    · exact hnb b hb
    · have hq := h1.query i hi
      have hcc := h1.add.content
      unfold run at hc'
      unfold Content at hc' hcc
      rw [hc'] at hcc
      injection hcc with hcc
      injection hcc with hcc
      generalize (schedule.foldl (step nd order root jobs) ⟨fs, fun _ => .start⟩).pc i = pc at h hq
      simp only [rank] at h
      cases hq with
      | start => simp only at h; omega
      | @reading r hr =>
        have := hr.2.2.length_le
        have e : c ++ logText ([] ++ log) = c' := hcc.symm
        rw [e, ← hr.2.1] at this
        simp only at h
        omega
      | answered _ _ => simp only at h; omega

/-- `C78_consistent`, `C78_monotone` and `C78_answers` for two additions and two queries, the second started after the first answered. -/
example : ∃ serial1 serial2 serial3 : List Nat, 0 ∈ serial1 ∧
    (run (fun _ => false) (fun _ => id) [['d']] [.add [.AddVertex 2], .add [.AddEdge 2 3], .query, .query]
      ([0, 0, 2, 2, 0, 0, 0, 1, 0, 2, 2] ++ [1, 1, 1, 3, 3, 3]) (sampleFS "AddVertex 1\n".toList)).pc 3 =
      .answered (.done (.ok (GraphCommand.applyCommands (serial1.flatMap (batchOf [.add [.AddVertex 2], .add [.AddEdge 2 3], .query, .query]))
        (GraphCommand.applyCommands [.AddVertex 1] .new)))) ∧
    (run (fun _ => false) (fun _ => id) [['d']] [.add [.AddVertex 2], .add [.AddEdge 2 3], .query, .query]
      ([0, 0, 2, 2, 0, 0, 0, 1, 0, 2, 2] ++ [1, 1, 1, 3, 3, 3]) (sampleFS "AddVertex 1\n".toList)).pc 3 =
      .answered (.done (.ok (GraphCommand.applyCommands (serial3.flatMap (batchOf [.add [.AddVertex 2], .add [.AddEdge 2 3], .query, .query]))
        (GraphCommand.applyCommands (serial2.flatMap (batchOf [.add [.AddVertex 2], .add [.AddEdge 2 3], .query, .query]))
          (GraphCommand.applyCommands [.AddVertex 1] .new))))) := by
  have hnb : ∀ j : Nat, [Job.add [.AddVertex 2], .add [.AddEdge 2 3], .query, .query][j]? ≠ some .build := by
    rintro (_ | _ | _ | _ | i) h <;> simp at h
  have hsmall : ∀ (j : Nat) (cs : List GraphCommand), [Job.add [.AddVertex 2], .add [.AddEdge 2 3], .query, .query][j]? = some (.add cs) →
      (Gcmd.commandsText cs).length ≤ 8192 := by
    rintro (_ | _ | _ | _ | i) cs h <;> simp at h <;> subst h <;> decide
  have ht : NewlineTerminated "AddVertex 1\n".toList := .inr (by decide)
  obtain ⟨res, hres⟩ := answered_of (pc := (run (fun _ => false) (fun _ => id) [['d']] [.add [.AddVertex 2], .add [.AddEdge 2 3], .query, .query]
    ([0, 0, 2, 2, 0, 0, 0, 1, 0, 2, 2] ++ [1, 1, 1, 3, 3, 3]) (sampleFS "AddVertex 1\n".toList)).pc 3) (by decide +kernel)
  obtain ⟨res2, hres2⟩ := answered_of (pc := (run (fun _ => false) (fun _ => id) [['d']] [.add [.AddVertex 2], .add [.AddEdge 2 3], .query, .query]
    ([] ++ [0, 0, 2, 2, 0, 0, 0, 1, 0, 2, 2]) (sampleFS "AddVertex 1\n".toList)).pc 2) (by decide +kernel)
  have hs := start_of (pc := (run (fun _ => false) (fun _ => id) [['d']] [.add [.AddVertex 2], .add [.AddEdge 2 3], .query, .query]
    [0, 0, 2, 2, 0, 0, 0, 1, 0, 2, 2] (sampleFS "AddVertex 1\n".toList)).pc 3) (by decide +kernel)
  obtain ⟨s1, r1, _, _, a1, _, a2, _⟩ := C78_consistent (fun _ => false) (fun _ => id) [['d']] _ hnb hsmall _ _ _ _ _ (sampleFS_ready _) rfl ht
    (load_sample _ [.AddVertex 1]) 3 rfl hs _ hres
  obtain ⟨s2, r2, _, _, _, _, b2, _⟩ := C78_consistent (fun _ => false) (fun _ => id) [['d']] _ hnb hsmall _ _ _ _ _ (sampleFS_ready _) rfl ht
    (load_sample _ [.AddVertex 1]) 2 rfl rfl _ hres2
  obtain ⟨s3, _, c2⟩ := C78_monotone (fun _ => false) (fun _ => id) [['d']] _ hnb hsmall _ _ _ _ _ (sampleFS_ready _) rfl ht
    (load_sample _ [.AddVertex 1]) 2 3 rfl rfl _ (hres2.trans (congrArg _ b2)) hs _ hres
  exact ⟨s1, s2, s3, a1 0 _ rfl (by decide) (finished_of (by decide +kernel)), hres.trans (congrArg _ a2), hres.trans (congrArg _ c2)⟩

/-- `C78_answers`: a query scheduled 27 times after an addition wrote 24 characters in all. -/
example : ∃ res, (run (fun _ => false) (fun _ => id) [['d']] [.query, .add [.AddVertex 2]] ([1, 1, 1, 1] ++ List.replicate 27 0)
    (sampleFS "AddVertex 1\n".toList)).pc 0 = .answered res :=
  C78_answers (fun _ => false) (fun _ => id) [['d']] _ (by rintro (_ | _ | i) h <;> simp at h)
    (by rintro (_ | _ | i) cs h <;> simp at h <;> subst h <;> decide) _ _ _ (sampleFS_ready _) rfl (.inr (by decide)) 0 rfl
    "AddVertex 1\nAddVertex 2\n".toList (by unfold Content; decide +kernel) (by decide)

/-- Two additions and two readers. The first reader (process 2) reads while the second addition has not written, the other one
(process 3) begins after the first answer. -/
example : let jobs : List Job := [.add [.AddVertex 2], .add [.AddEdge 2 3], .query, .query]
    let s1 := run (fun _ => false) (fun _ => id) [['d']] jobs [0, 0, 2, 2, 0, 0, 0, 1, 0, 2, 2] (sampleFS "AddVertex 1\n".toList)
    let s := run (fun _ => false) (fun _ => id) [['d']] jobs ([0, 0, 2, 2, 0, 0, 0, 1, 0, 2, 2] ++ [1, 1, 1, 3, 3, 3]) (sampleFS "AddVertex 1\n".toList)
    (s1.pc 2 matches .answered _) ∧ (s1.pc 3 matches .start) ∧ (s1.pc 0 matches .finished _) ∧ (s.pc 3 matches .answered _) ∧
      (match s.pc 2, s.pc 3 with
        | .answered (.done (.ok g2)), .answered (.done (.ok g3)) => decide (g2.vertices = [1, 2] ∧ g3.vertices = [1, 2, 3])
        | _, _ => false) = true := by
  decide +kernel

end Concurrent
end GC
