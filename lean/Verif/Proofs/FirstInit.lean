/-
Proofs about processes that run while the graph is initialised for the first time.
-/
import Verif.Proofs.Concurrent
namespace GC
namespace Concurrent
open Store Text Format

/-- The addition did not find the command file. -/
def Failed (pc : Pc) : Prop := (∃ e, pc = .unlocking (.error e)) ∨ pc = .finished false

/-- As long as there is no command file. -/
structure NoneInv (root : FPath) (jobs : List Job) (s : Sys) : Prop where
  absent : s.fs (commandPath root) = none
  dirs : DirPossible s.fs (rootPath root)
  lock : s.fs (lockPath root) ≠ some .dir
  add : ∀ i cs, jobs[i]? = some (.add cs) → s.pc i = .start ∨ ((s.pc i = .dirs ∨ s.pc i = .locked) ∧ s.fs root = some .dir) ∨ Failed (s.pc i)
  query : ∀ i : Nat, jobs[i]? = some .query → s.pc i = .start ∨ s.pc i = .answered (.done (.error (.io .notFound)))
  init : ∀ i : Nat, jobs[i]? = some .init → s.pc i = .start ∨ (s.pc i = .dirs ∧ ∀ q, q <+: rootPath root → s.fs q = some .dir)

/-- What a step does to the files as long as there is no command file. -/
structure Harmless (root : FPath) (fs fs' : FS) : Prop where
  absent : fs (commandPath root) = none → fs' (commandPath root) = none
  dirs : DirPossible fs (rootPath root) → DirPossible fs' (rootPath root)
  lock : fs (lockPath root) ≠ some .dir → fs' (lockPath root) ≠ some .dir
  keep : ∀ q, q <+: rootPath root → fs q = some .dir → fs' q = some .dir

theorem Harmless.refl (root : FPath) (fs : FS) : Harmless root fs fs := ⟨id, id, id, fun _ _ => id⟩

theorem harmless_dirs {root : FPath} {fs : FS} {d : FPath} (hd : d <+: rootPath root) (h : DirPossible fs d) :
    Harmless root fs (createDirAll d fs).1 ∧ ∀ q, q <+: d → (createDirAll d fs).1 q = some .dir := by
  rw [createDirAll_ok h]
  refine ⟨⟨fun h1 => ?_, fun h1 q hq hf => ?_, fun h1 => ?_, fun q hq h1 => ?_⟩, fun q hq => ?_⟩
  · dsimp only
    rw [if_neg (fun h => command_not_prefix root ((isPrefixOf_iff.1 h).trans hd) rfl)]
    exact h1
  · obtain ⟨c, hc⟩ := hf
    dsimp only at hc
    split at hc
    · cases hc
    · exact h1 q hq ⟨c, hc⟩
  · dsimp only
    rw [if_neg (fun h => lock_not_prefix root ((isPrefixOf_iff.1 h).trans hd) rfl)]
    exact h1
  · dsimp only
    split
    · rfl
    · exact h1
  · dsimp only
    rw [if_pos (isPrefixOf_iff.2 hq)]

theorem harmless_lock {root : FPath} {fs : FS} {n : Option Node} (hn : n ≠ some .dir) : Harmless root fs (fs.set (lockPath root) n) := by
  refine ⟨fun h => ?_, fun h q hq hf => ?_, fun _ => by rw [FS.set_self]; exact hn, fun q hq h => ?_⟩
  · rw [FS.set_other _ _ (lock_ne_command root)]; exact h
  · obtain ⟨c, hc⟩ := hf
    rw [FS.set_other _ _ (lock_not_prefix root hq)] at hc
    exact h q hq ⟨c, hc⟩
  · rw [FS.set_other _ _ (lock_not_prefix root hq)]; exact h

theorem unlock_error {root : FPath} {fs : FS} (hl : fs (lockPath root) ≠ some .dir) (cs : List GraphCommand) (e : IoError) :
    ∃ n, stepAdd root cs (.unlocking (.error e)) fs = (fs.set (lockPath root) n, .finished false) ∧ n ≠ some .dir := by
  simp only [stepAdd, unlock, removeFile]
  cases e : fs (lockPath root) with
  | none =>
    refine ⟨none, ?_, by simp⟩
    simp only [Prod.mk.injEq, and_true]
    funext q
    unfold FS.set
    split
    · rename_i hq; rw [hq, e]
    · rfl
  | some nd =>
    cases nd with
    | dir => exact absurd e hl
    | file c => exact ⟨none, rfl, by simp⟩

theorem openCreate_lock' {root : FPath} {fs : FS} (h : fs root = some .dir) (hl : fs (lockPath root) ≠ some .dir) :
    ∃ n, openCreate (lockPath root) fs = (fs.set (lockPath root) n, .ok ()) ∧ n ≠ some .dir := by
  have hd : (lockPath root).dropLast = root := by simp [lockPath]
  unfold openCreate
  cases e : fs (lockPath root) with
  | none =>
    refine ⟨some (.file []), ?_, by simp⟩
    simp only
    rw [hd, h]
  | some nd =>
    cases nd with
    | dir => exact absurd e hl
    | file c =>
      refine ⟨some (.file c), ?_, by simp⟩
      simp only
      congr 1
      funext q
      unfold FS.set
      split
      · rename_i hq; rw [hq, e]
      · rfl

open Classical in
/-- The processes in `F` taken back to their start. -/
noncomputable def masked (F : Nat → Prop) (s : Sys) : Sys := ⟨s.fs, fun j => if F j then .start else s.pc j⟩

theorem masked_pc {F : Nat → Prop} {s : Sys} {i : Nat} (h : ¬ F i) : (masked F s).pc i = s.pc i := if_neg h

/-- Once there is a command file; the processes in `F` did not find it. -/
structure SomeInv (nd : Char → Bool) (root : FPath) (jobs : List Job) (F : Nat → Prop) (log : List (Nat × Text)) (s : Sys) : Prop where
  read : ReadInv nd root jobs [] (fun _ => 0) log (masked F s)
  failed : ∀ i, F i → ((∃ cs, jobs[i]? = some (.add cs)) ∧ Failed (s.pc i)) ∨
    (jobs[i]? = some .query ∧ s.pc i = .answered (.done (.error (.io .notFound))))
  init : ∀ i : Nat, jobs[i]? = some .init → s.pc i = .start ∨ s.pc i = .dirs ∨ s.pc i = .finished true

theorem NoneInv.step {nd : Char → Bool} {order : Nat → DirectedGraph → DirectedGraph} {root : FPath} {jobs : List Job}
    (hnb : ∀ j : Nat, jobs[j]? ≠ some .build) {s : Sys} (h : NoneInv root jobs s) (i : Nat) :
    NoneInv root jobs (step nd order root jobs s i) ∨ ∃ F, SomeInv nd root jobs F [] (step nd order root jobs s i) := by
  cases hi : jobs[i]? with
  | none => rw [step_none hi]; exact .inl h
  | some job =>
    have key : ∀ fs pc, stepJob nd (order i) root job (s.pc i) s.fs = (fs, pc) → Harmless root s.fs fs →
        (∀ cs, job = .add cs → pc = .start ∨ ((pc = .dirs ∨ pc = .locked) ∧ fs root = some .dir) ∨ Failed pc) →
        (job = .query → pc = .start ∨ pc = .answered (.done (.error (.io .notFound)))) →
        (job = .init → pc = .start ∨ (pc = .dirs ∧ ∀ q, q <+: rootPath root → fs q = some .dir)) →
        NoneInv root jobs (Concurrent.step nd order root jobs s i) := by
      intro fs pc e hh h1 h2 h3
      unfold Concurrent.step
      rw [hi]
      dsimp only
      rw [e]
      refine ⟨hh.absent h.absent, hh.dirs h.dirs, hh.lock h.lock, fun j cs hj => ?_, fun j hj => ?_, fun j hj => ?_⟩
      · by_cases hji : j = i
        · subst hji
          rw [hi] at hj
          cases hj
          simpa using h1 cs rfl
        · simp only [hji, if_false]
          rcases h.add j cs hj with h | ⟨h, h'⟩ | h
          · exact .inl h
          · exact .inr (.inl ⟨h, hh.keep _ (List.prefix_append _ _) h'⟩)
          · exact .inr (.inr h)
      · by_cases hji : j = i
        · subst hji
          rw [hi] at hj
          cases hj
          simpa using h2 rfl
        · simp only [hji, if_false]
          exact h.query j hj
      · by_cases hji : j = i
        · subst hji
          rw [hi] at hj
          cases hj
          simpa using h3 rfl
        · simp only [hji, if_false]
          rcases h.init j hj with h | ⟨h, h'⟩
          · exact .inl h
          · exact .inr ⟨h, fun q hq => hh.keep q hq (h' q hq)⟩
    have hroot : DirPossible s.fs root := fun q hq => h.dirs q (hq.trans (List.prefix_append _ _))
    cases job with
    | build => exact absurd hi (hnb i)
    | query =>
      left
      rcases h.query i hi with hp | hp
      · refine key s.fs (.answered (.done (.error (.io .notFound)))) ?_ (.refl _ _) (fun _ h => by cases h) (fun _ => .inr rfl) (fun h => by cases h)
        rw [hp]
        simp only [stepJob, stepQuery, stepOpen, h.absent]
      · refine key s.fs (.answered (.done (.error (.io .notFound)))) ?_ (.refl _ _) (fun _ h => by cases h) (fun _ => .inr rfl) (fun h => by cases h)
        rw [hp]
        rfl
    | add cs =>
      left
      rcases h.add i cs hi with hp | ⟨hp | hp, hr⟩ | ⟨e, hp⟩ | hp
      · obtain ⟨h1, h2⟩ := harmless_dirs (List.prefix_append _ _) hroot
        refine key _ .dirs (by rw [hp]; rfl) h1 (fun _ _ => .inr (.inl ⟨.inl rfl, h2 _ (List.prefix_refl _)⟩)) (fun h => by cases h)
          (fun h => by cases h)
      · obtain ⟨n, h1, h2⟩ := openCreate_lock' hr h.lock
        have hh := harmless_lock (root := root) (fs := s.fs) h2
        refine key (s.fs.set (lockPath root) n) .locked ?_ hh
          (fun _ _ => .inr (.inl ⟨.inr rfl, hh.keep _ (List.prefix_append _ _) hr⟩)) (fun h => by cases h) (fun h => by cases h)
        rw [hp]
        simp only [stepJob, stepAdd, h1]
      · have : ∃ e, openAppend (commandPath root) s.fs = (s.fs, .error e) := by
          unfold openAppend
          rw [h.absent]
          exact ⟨_, rfl⟩
        obtain ⟨e, he⟩ := this
        refine key s.fs (.unlocking (.error e)) ?_ (.refl _ _) (fun _ _ => .inr (.inr (.inl ⟨e, rfl⟩))) (fun h => by cases h) (fun h => by cases h)
        rw [hp]
        simp only [stepJob, stepAdd, he]
      · obtain ⟨n, h1, h2⟩ := unlock_error h.lock cs e
        refine key _ _ (by rw [hp]; exact h1) (harmless_lock h2) (fun _ _ => .inr (.inr (.inr rfl))) (fun h => by cases h) (fun h => by cases h)
      · refine key s.fs (.finished false) (by rw [hp]; rfl) (.refl _ _) (fun _ _ => .inr (.inr (.inr rfl))) (fun h => by cases h)
          (fun h => by cases h)
    | init =>
      rcases h.init i hi with hp | ⟨hp, hr⟩
      · left
        obtain ⟨h1, h2⟩ := harmless_dirs (List.prefix_refl _) h.dirs
        exact key _ .dirs (by rw [hp]; rfl) h1 (fun _ h => by cases h) (fun h => by cases h) (fun _ => .inr ⟨rfl, h2⟩)
      · right
        have e : Concurrent.step nd order root jobs s i =
            ⟨s.fs.set (commandPath root) (some (.file [])), fun j => if j = i then .finished true else s.pc j⟩ := by
          unfold Concurrent.step
          rw [hi]
          have hd : (commandPath root).dropLast = rootPath root := by simp [commandPath, rootPath]
          simp only [stepJob, hp, stepInit, openCreate, h.absent, hd, hr _ (List.prefix_refl _)]
        rw [e]
        refine ⟨fun j => ((∃ cs, jobs[j]? = some (.add cs)) ∧ Failed (s.pc j)) ∨
          (jobs[j]? = some .query ∧ s.pc j = .answered (.done (.error (.io .notFound)))), ⟨⟨⟨?_, ⟨[], FS.set_self _ _ _⟩, ?_⟩, ?_, ?_, by simp⟩, ?_, ?_,
          fun _ => Nat.zero_le _⟩, ?_, ?_⟩
        · intro q hq
          show (s.fs.set _ _) q = _
          rw [FS.set_other _ _ (command_not_prefix root hq)]
          exact hr q hq
        · show (s.fs.set _ _) _ ≠ _
          rw [FS.set_other _ _ (lock_ne_command root).symm]
          exact h.lock
        · exact FS.set_self _ _ _
        · intro j cs hj
          have hji : j ≠ i := by rintro rfl; rw [hi] at hj; cases hj
          show PcOk _ [] _
          unfold masked
          dsimp only
          simp only [hji, if_false]
          split
          · exact .start
          · rename_i hF
            rcases h.add j cs hj with h1 | ⟨h1 | h1, _⟩ | h1
            · rw [h1]; exact .start
            · rw [h1]; exact .dirs
            · rw [h1]; exact .locked
            · exact absurd (.inl ⟨⟨cs, hj⟩, h1⟩) hF
        · intro j hj
          have hji : j ≠ i := by rintro rfl; rw [hi] at hj; cases hj
          unfold masked
          dsimp only
          simp only [hji, if_false]
          split
          · exact .start
          · rename_i hF
            rcases h.query j hj with h1 | h1
            · rw [h1]; exact .start
            · exact absurd (.inr ⟨hj, h1⟩) hF
        · exact fun j hj => absurd hj (hnb j)
        · intro j hF
          have hji : j ≠ i := by
            rintro rfl
            rcases hF with ⟨⟨cs, hj⟩, _⟩ | ⟨hj, _⟩ <;> (rw [hi] at hj; cases hj)
          simp only [hji, if_false]
          exact hF
        · intro j hj
          by_cases hji : j = i
          · simp [hji]
          · simp only [hji, if_false]
            rcases h.init j hj with h | ⟨h, _⟩
            · exact .inl h
            · exact .inr (.inl h)

theorem SomeInv.step {nd : Char → Bool} {order : Nat → DirectedGraph → DirectedGraph} {root : FPath} {jobs : List Job}
    (hnb : ∀ j : Nat, jobs[j]? ≠ some .build) (hs : Small jobs) {F : Nat → Prop} {log : List (Nat × Text)} {s : Sys}
    (h : SomeInv nd root jobs F log s) (i : Nat) :
    ∃ log', SomeInv nd root jobs F (log ++ log') (step nd order root jobs s i) := by
  have hready : Ready root s.fs := h.read.add.ready
  by_cases hF : F i
  · refine ⟨[], ?_⟩
    rw [List.append_nil]
    have key : ∀ n pc, n ≠ some .dir → (((∃ cs, jobs[i]? = some (.add cs)) ∧ Failed pc) ∨
        (jobs[i]? = some .query ∧ pc = .answered (.done (.error (.io .notFound))))) →
        SomeInv nd root jobs F log ⟨s.fs.set (lockPath root) n, fun j => if j = i then pc else s.pc j⟩ := by
      intro n pc hn hpc
      have em : masked F ⟨s.fs.set (lockPath root) n, fun j => if j = i then pc else s.pc j⟩ =
          ⟨s.fs.set (lockPath root) n, (masked F s).pc⟩ := by
        unfold masked
        congr 1
        funext j
        dsimp only
        split
        · rfl
        · rename_i hj
          rw [if_neg (by rintro rfl; exact hj hF)]
      refine ⟨?_, fun j hj => ?_, fun j hj => ?_⟩
      · rw [em]
        exact ⟨⟨ready_set_lock hready hn, content_set_lock h.read.add.content n, h.read.add.ok, h.read.add.known⟩, h.read.query, h.read.build, h.read.began⟩
      · by_cases hji : j = i
        · subst hji
          simpa using hpc
        · simp only [hji, if_false]
          exact h.failed j hj
      · have hji : j ≠ i := by
          rintro rfl
          rcases hpc with ⟨⟨cs, hc⟩, _⟩ | ⟨hc, _⟩ <;> (rw [hc] at hj; cases hj)
        simp only [hji, if_false]
        exact h.init j hj
    have same : ∀ fs pc, fs = s.fs → pc = s.pc i → (⟨fs, fun j => if j = i then pc else s.pc j⟩ : Sys) = s := by
      rintro fs pc rfl rfl
      cases s
      congr 1
      funext j
      split
      · rename_i hj; rw [hj]
      · rfl
    rcases h.failed i hF with ⟨⟨cs, hi⟩, ⟨e, hp⟩ | hp⟩ | ⟨hi, hp⟩
    · obtain ⟨n, h1, h2⟩ := unlock_error (fs := s.fs) hready.2.2 cs e
      have e : Concurrent.step nd order root jobs s i = ⟨s.fs.set (lockPath root) n, fun j => if j = i then .finished false else s.pc j⟩ := by
        unfold Concurrent.step
        rw [hi]
        simp only [stepJob, hp, h1]
      rw [e]
      exact key n _ h2 (.inl ⟨⟨cs, hi⟩, .inr rfl⟩)
    · have e : Concurrent.step nd order root jobs s i = s := by
        unfold Concurrent.step
        rw [hi]
        exact same _ _ (by rw [hp]) (by rw [hp])
      rw [e]
      exact h
    · have e : Concurrent.step nd order root jobs s i = s := by
        unfold Concurrent.step
        rw [hi]
        exact same _ _ (by rw [hp]) (by rw [hp])
      rw [e]
      exact h
  · have em : masked F (Concurrent.step nd order root jobs s i) = Concurrent.step nd order root jobs (masked F s) i := by
      unfold Concurrent.step
      cases hi : jobs[i]? with
      | none => rfl
      | some job =>
        dsimp only
        rw [masked_pc hF]
        show masked F ⟨(stepJob nd (order i) root job (s.pc i) s.fs).1, _⟩ = ⟨(stepJob nd (order i) root job (s.pc i) s.fs).1, _⟩
        unfold masked
        congr 1
        funext j
        dsimp only
        by_cases hji : j = i
        · subst hji
          rw [if_neg hF, if_pos rfl, if_pos rfl]
        · rw [if_neg hji, if_neg hji]
    obtain ⟨log', h1⟩ : ∃ log', ReadInv nd root jobs [] (fun _ => 0) (log ++ log') (Concurrent.step nd order root jobs (masked F s) i) := by
      rcases h.read.run (order := order) hs (.inl rfl) [i] with ⟨b, hb, _⟩ | h1
      · exact absurd hb (hnb b)
      · exact h1
    have hother : ∀ j, j ≠ i → (Concurrent.step nd order root jobs s i).pc j = s.pc j := by
      intro j hj
      unfold Concurrent.step
      cases jobs[i]? with
      | none => rfl
      | some job => simp [hj]
    refine ⟨log', by rw [em]; exact h1, fun j hj => ?_, fun j hj => ?_⟩
    · rw [hother j (by rintro rfl; exact hF hj)]
      exact h.failed j hj
    · by_cases hji : j = i
      · subst hji
        obtain ⟨c, hc⟩ := hready.2.1
        have e : (Concurrent.step nd order root jobs s j).pc j = (stepInit root (s.pc j) s.fs).2 := by
          unfold Concurrent.step
          rw [hj]
          simp [stepJob]
        rw [e]
        rcases h.init j hj with hp | hp | hp
        · rw [hp]; exact .inr (.inl rfl)
        · rw [hp]
          right; right
          simp only [stepInit, openCreate, hc]
        · rw [hp]; exact .inr (.inr rfl)
      · rw [hother j hji]
        exact h.init j hj

theorem SomeInv.run {nd : Char → Bool} {order : Nat → DirectedGraph → DirectedGraph} {root : FPath} {jobs : List Job}
    (hnb : ∀ j : Nat, jobs[j]? ≠ some .build) (hs : Small jobs) {F : Nat → Prop} (sched : List Nat) {log : List (Nat × Text)} {s : Sys}
    (h : SomeInv nd root jobs F log s) :
    ∃ log', SomeInv nd root jobs F (log ++ log') (sched.foldl (Concurrent.step nd order root jobs) s) := by
  induction sched generalizing log s with
  | nil => exact ⟨[], by simpa using h⟩
  | cons i sched ih =>
    obtain ⟨l1, h1⟩ := h.step (order := order) hnb hs i
    obtain ⟨l2, h2⟩ := ih h1
    exact ⟨l1 ++ l2, by rw [← List.append_assoc]; exact h2⟩

theorem NoneInv.run {nd : Char → Bool} {order : Nat → DirectedGraph → DirectedGraph} {root : FPath} {jobs : List Job}
    (hnb : ∀ j : Nat, jobs[j]? ≠ some .build) (hs : Small jobs) (sched : List Nat) {s : Sys} (h : NoneInv root jobs s) :
    NoneInv root jobs (sched.foldl (Concurrent.step nd order root jobs) s) ∨
      ∃ F log, SomeInv nd root jobs F log (sched.foldl (Concurrent.step nd order root jobs) s) := by
  induction sched generalizing s with
  | nil => exact .inl h
  | cons i sched ih =>
    rw [List.foldl_cons]
    rcases h.step (nd := nd) (order := order) hnb i with h1 | ⟨F, h1⟩
    · exact ih h1
    · obtain ⟨log, h2⟩ := h1.run (order := order) hnb hs sched
      exact .inr ⟨F, _, h2⟩

end Concurrent
end GC
