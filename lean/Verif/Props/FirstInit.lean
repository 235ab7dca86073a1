/-
Property C86: processes that run while the graph is initialised for the first time.
-/
import Verif.Proofs.FirstInit
import Verif.Props.Concurrent
import Verif.Props.History
namespace GC
namespace Concurrent
open Store Text Format

variable (nd : Char → Bool) (order : Nat → DirectedGraph → DirectedGraph)

/-- The small-step model of gc-init agrees with `gcInit`: run alone it does the same, on every file system. -/
theorem C86_alone (root : FPath) (fs : FS) (m : Nat) (hm : 2 ≤ m) :
    (run nd order root [.init] (List.replicate m 0) fs).fs = (gcInit root fs).1 ∧
    ((gcInit root fs).2 = .success → (run nd order root [.init] (List.replicate m 0) fs).pc 0 = .finished true) ∧
    ((gcInit root fs).2 = .panic → (run nd order root [.init] (List.replicate m 0) fs).pc 0 = .finished false) := by
  obtain ⟨m, rfl⟩ : ∃ k, m = k + 2 := ⟨m - 2, by omega⟩
  have stay : ∀ (m : Nat) (s : Sys), Finished (s.pc 0) →
      ((List.replicate m 0).foldl (step nd order root [.init]) s).fs = s.fs ∧
      ((List.replicate m 0).foldl (step nd order root [.init]) s).pc 0 = s.pc 0 := by
    intro m
    induction m with
    | zero => exact fun _ _ => ⟨rfl, rfl⟩
    | succ m ih =>
      rintro s ⟨ok, hok⟩
      rw [List.replicate_succ, List.foldl_cons]
      have e1 : (step nd order root [.init] s 0).fs = s.fs := by
        show (stepInit root (s.pc 0) s.fs).1 = _
        rw [hok]
        rfl
      have e2 : (step nd order root [.init] s 0).pc 0 = s.pc 0 := by
        show (stepInit root (s.pc 0) s.fs).2 = _
        rw [hok]
        rfl
      obtain ⟨h1, h2⟩ := ih (step nd order root [.init] s 0) (by rw [e2]; exact ⟨ok, hok⟩)
      exact ⟨h1.trans e1, h2.trans e2⟩
  have e : ∃ ok, step nd order root [.init] (step nd order root [.init] ⟨fs, fun _ => .start⟩ 0) 0 =
      ⟨(gcInit root fs).1, fun j => if j = 0 then .finished ok else .start⟩ ∧ (ok = true ↔ (gcInit root fs).2 = .success) := by
    have hd : (commandPath root).dropLast = rootPath root := by simp [commandPath, rootPath]
    unfold gcInit init touch
    rw [hd]
    simp only [step, List.getElem?_cons_zero, stepJob, stepInit, if_true]
    rcases openCreate (commandPath root) (createDirAll (rootPath root) fs).1 with ⟨fs1, _ | _⟩
    · refine ⟨false, ?_, by simp [expectOk]⟩
      simp only [expectOk]
      congr 1
      funext j
      split <;> simp_all
    · refine ⟨true, ?_, by simp [expectOk]⟩
      simp only [expectOk]
      congr 1
      funext j
      split <;> simp_all
  obtain ⟨ok, e, hok⟩ := e
  obtain ⟨h1, h2⟩ := stay m (step nd order root [.init] (step nd order root [.init] ⟨fs, fun _ => .start⟩ 0) 0) (by rw [e]; exact ⟨ok, rfl⟩)
  unfold run
  rw [show m + 2 = (m + 1) + 1 from rfl, List.replicate_succ, List.replicate_succ, List.foldl_cons, List.foldl_cons, h1, h2, e]
  refine ⟨rfl, fun hx => ?_, fun hx => ?_⟩
  · rw [← hok] at hx
    simp [hx]
  · have : ok ≠ true := by rw [ne_eq, hok, hx]; simp
    simp [this]

/-- C86: gc-init, additions (of at most 8192 bytes) and queries run at the same time in a directory without a graph, in any schedule, with
crashes. Every gc-init that returned succeeded; once one returned, the stored graph is that of whole batches applied one after the other to
the empty graph, among them those of all additions that returned success. Before, additions fail. A query reports that there is no graph, or
loads the graph of the batches stored so far. -/
theorem C86_first_init (root : FPath) (jobs : List Job) (hnb : ∀ j : Nat, jobs[j]? ≠ some .build)
    (hsmall : ∀ (j : Nat) (cs : List GraphCommand), jobs[j]? = some (.add cs) → (Gcmd.commandsText cs).length ≤ 8192)
    (schedule : List Nat) (fs : FS) (hd : DirPossible fs (rootPath root)) (hc : fs (commandPath root) = none)
    (hl : fs (lockPath root) ≠ some .dir) :
    ∃ serial : List Nat, serial.Nodup ∧
      (∀ i ∈ serial, ∃ cs, jobs[i]? = some (.add cs)) ∧
      (∀ (i : Nat) (cs : List GraphCommand), jobs[i]? = some (.add cs) → cs ≠ [] →
        (run nd order root jobs schedule fs).pc i = .finished true → i ∈ serial) ∧
      (∀ i : Nat, jobs[i]? = some .init → Finished ((run nd order root jobs schedule fs).pc i) →
        (run nd order root jobs schedule fs).pc i = .finished true ∧
        loadGraph nd root (run nd order root jobs schedule fs).fs =
          .done (.ok (GraphCommand.applyCommands (serial.flatMap (batchOf jobs)) .new))) ∧
      (loadGraph nd root (run nd order root jobs schedule fs).fs = .done (.error (.io .notFound)) → serial = []) ∧
      ∀ (i : Nat) (res : Run (Except LoadError DirectedGraph)), jobs[i]? = some .query →
        (run nd order root jobs schedule fs).pc i = .answered res →
        res = .done (.error (.io .notFound)) ∨
        ∃ k, res = .done (.ok (GraphCommand.applyCommands ((serial.take k).flatMap (batchOf jobs)) .new)) := by
  have h0 : NoneInv root jobs ⟨fs, fun _ => .start⟩ := ⟨hc, hd, hl, fun _ _ _ => .inl rfl, fun _ _ => .inl rfl, fun _ _ => .inl rfl⟩
  unfold run
  rcases h0.run (nd := nd) (order := order) hnb hsmall schedule with h | ⟨F, log, h⟩
  · generalize schedule.foldl (step nd order root jobs) ⟨fs, fun _ => .start⟩ = s at h
    refine ⟨[], List.nodup_nil, by simp, fun i cs hi _ hf => ?_, fun i hi hf => ?_, fun _ => rfl, fun i res hi hr => ?_⟩
    · rcases h.add i cs hi with h | ⟨h | h, _⟩ | ⟨_, h⟩ | h <;> (rw [hf] at h; cases h)
    · obtain ⟨ok, hf⟩ := hf
      rcases h.init i hi with h | ⟨h, _⟩ <;> (rw [hf] at h; cases h)
    · left
      rcases h.query i hi with h | h
      · rw [hr] at h; cases h
      · rw [hr] at h; cases h; rfl
  · generalize schedule.foldl (step nd order root jobs) ⟨fs, fun _ => .start⟩ = s at h
    have hok := h.read.add.ok
    have hkn := h.read.add.known
    rw [List.nil_append] at hok hkn
    obtain ⟨q1, q2, q3⟩ := small_order hok hkn hsmall
    have hcont : Content root s.fs (logText log) := h.read.add.content
    have key : ∀ k, loadLines nd (lines (logText (log.take k))) =
        .done (.ok (GraphCommand.applyCommands (((log.map Prod.fst).take k).flatMap (batchOf jobs)) .new)) := by
      intro k
      have e0 : Content root s.fs (logText log) := hcont
      have hfs : loadGraph nd root (s.fs.set (commandPath root) (some (.file []))) = .done (.ok .new) :=
        (loadGraph_content (FS.set_self _ _ _)).2 rfl
      have := load_log (nd := nd) (jobs := jobs) (root := root) (c := []) (FS.set_self s.fs _ _) (.inl rfl) hfs (log := log.take k)
        (fun p hp => q2 p (List.mem_of_mem_take hp))
      rw [List.nil_append, List.map_take] at this
      exact this
    have hload : loadGraph nd root s.fs = .done (.ok (GraphCommand.applyCommands ((log.map Prod.fst).flatMap (batchOf jobs)) .new)) := by
      rw [loadGraph_lines hcont]
      have := key log.length
      rwa [List.take_length, List.take_of_length_le (by simp)] at this
    refine ⟨log.map Prod.fst, q1, fun i hi => ?_, fun i cs hi hne hf => ?_, fun i hi hf => ⟨?_, hload⟩, fun hno => ?_, fun i res hi hr => ?_⟩
    · obtain ⟨p, hp, rfl⟩ := List.mem_map.1 hi
      obtain ⟨cs, hcs, _⟩ := q2 p hp
      exact ⟨cs, hcs⟩
    · apply q3 i cs hi hne
      have hF : ¬ F i := by
        intro hF
        rcases h.failed i hF with ⟨_, ⟨_, h⟩ | h⟩ | ⟨h, _⟩
        · rw [hf] at h; cases h
        · rw [hf] at h; cases h
        · rw [hi] at h; cases h
      rw [masked_pc hF]
      exact ⟨true, hf⟩
    · obtain ⟨ok, hf⟩ := hf
      rcases h.init i hi with h | h | h
      · rw [hf] at h; cases h
      · rw [hf] at h; cases h
      · exact h
    · rw [hload] at hno
      cases hno
    · by_cases hF : F i
      · left
        rcases h.failed i hF with ⟨⟨_, h⟩, _⟩ | ⟨_, h⟩
        · rw [hi] at h; cases h
        · rw [hr] at h; cases h; rfl
      · right
        have hq := h.read.query i hi
        rw [masked_pc hF, hr] at hq
        generalize hpc : Pc.answered res = pc at hq
        cases hq with
        | start => cases hpc
        | reading _ => cases hpc
        | @answered k _ _ =>
          cases hpc
          exact ⟨k, key k⟩

/-- `C86_first_init` for three jobs, started where there is no graph. -/
example (schedule : List Nat) := C86_first_init nd order [['d']] [.add [.AddVertex 1], .init, .query]
  (by rintro (_ | _ | _ | i) <;> simp)
  (by rintro (_ | _ | _ | i) cs h <;> simp at h <;> subst h <;> decide) schedule emptyFS
  (by
    rintro q _ ⟨c, hc⟩
    unfold emptyFS at hc
    split at hc <;> cases hc) (by decide) (by decide)

/-- Two gc-init, three additions and two queries in an empty directory: one addition comes too early and fails, one query finds no graph. -/
example : let jobs : List Job := [.add [.AddVertex 1], .init, .init, .add [.AddVertex 2], .add [.AddEdge 3 4], .query, .query]
    let s := run (fun _ => false) (fun _ => id) [['d']] jobs ([5, 0, 0, 0, 0, 1, 3, 2, 1, 3, 3, 6, 3, 6, 2, 4, 4, 4, 4] ++ [4, 4, 3, 3, 6, 6]) emptyFS
    (DirPossible emptyFS (rootPath [['d']]) ∧ emptyFS (commandPath [['d']]) = none ∧ emptyFS (lockPath [['d']]) ≠ some .dir) ∧
    (s.pc 0 matches .finished false) ∧ (s.pc 1 matches .finished true) ∧ (s.pc 2 matches .finished true) ∧ (s.pc 4 matches .finished true) ∧
      (s.pc 5 matches .answered (.done (.error _))) ∧ (s.pc 6 matches .answered (.done (.ok _))) ∧
      s.fs (commandPath [['d']]) = some (.file "AddVertex 2\nAddEdge 3 4\n".toList) := by
  refine ⟨⟨?_, ?_, ?_⟩, ?_⟩
  · rintro q _ ⟨c, hc⟩
    unfold emptyFS at hc
    split at hc <;> cases hc
  · decide
  · decide
  · decide +kernel

end Concurrent
end GC
