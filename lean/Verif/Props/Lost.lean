/-
Property C70: exactly which additions are lost when gc-build runs at the same time.
-/
import Verif.Props.Concurrent
import Verif.Proofs.Lost
namespace GC
namespace Concurrent
open Store Text Format

variable (nd : Char → Bool) (order : Nat → DirectedGraph → DirectedGraph)

/-- C70 (partial): exactly what is stored in the end, for additions of at most 8192 bytes and every schedule at the end of which gc-build
returned. The schedule falls into four parts: until gc-build has made its last `read` (`u1` and a step of `b`); until it truncates the file (`u2`
and a step of `b`); until its last `write` (`u3`); and the rest (`u4`). Additions that wrote their batches in the first part were seen by
gc-build and are stored. Those of the second part are missed: nothing of them is stored. Those of the third part are overwritten from their
beginning, by the saved graph; only a tail that sticks out is left. Those of the last part are stored. If no tail is left, the stored graph is
the old one with the batches that were seen and those written later.
Missing: that nothing is lost, see `C70_counterexample`. -/
theorem C70_exact_partial (ho : ∀ i, IsOrder (order i)) (root : FPath) (jobs : List Job) (b : Nat) (hb : jobs[b]? = some .build)
    (hone : ∀ i, jobs[i]? = some .build → i = b)
    (hsmall : ∀ (i : Nat) (cs : List GraphCommand), jobs[i]? = some (.add cs) → (Gcmd.commandsText cs).length ≤ 8192)
    (sched : List Nat) (fs : FS) (c : Text) (g : DirectedGraph)
    (hr : Ready root fs) (hc : Content root fs c) (ht : NewlineTerminated c) (hg : loadGraph nd root fs = .done (.ok g))
    (hf : Finished ((run nd order root jobs sched fs).pc b)) :
    ∃ (u1 u2 u3 u4 seen missed overwritten later : List Nat) (x : DirectedGraph) (tail : Text),
      sched = (u1 ++ b :: u2) ++ b :: u3 ++ u4 ∧
      NotLoaded ((run nd order root jobs u1 fs).pc b) ∧ ¬ NotLoaded ((run nd order root jobs (u1 ++ [b]) fs).pc b) ∧ b ∉ u2 ∧
      (u3 = [] ∨ u3.getLast? = some b) ∧ (∃ n, (run nd order root jobs ((u1 ++ b :: u2) ++ b :: u3) fs).pc b = .rewriting n []) ∧
      (seen ++ missed ++ overwritten ++ later).Nodup ∧
      (∀ i ∈ seen ++ missed ++ overwritten ++ later, ∃ cs, jobs[i]? = some (.add cs)) ∧
      (∀ (i : Nat) (cs : List GraphCommand), jobs[i]? = some (.add cs) → cs ≠ [] →
        (Wrote ((run nd order root jobs u1 fs).pc i) ↔ i ∈ seen) ∧
        (Wrote ((run nd order root jobs (u1 ++ b :: u2) fs).pc i) ↔ i ∈ seen ++ missed) ∧
        (Wrote ((run nd order root jobs ((u1 ++ b :: u2) ++ b :: u3) fs).pc i) ↔ i ∈ seen ++ missed ++ overwritten) ∧
        (Wrote ((run nd order root jobs sched fs).pc i) ↔ i ∈ seen ++ missed ++ overwritten ++ later)) ∧
      Built x ∧ SameGraph x (GraphCommand.applyCommands (seen.flatMap (batchOf jobs)) g) ∧
      Content root (run nd order root jobs sched fs).fs (Gcmd.save x ++ tail ++ Gcmd.commandsText (later.flatMap (batchOf jobs))) ∧
      tail <:+ Gcmd.commandsText (overwritten.flatMap (batchOf jobs)) ∧
      (Gcmd.commandsText (overwritten.flatMap (batchOf jobs))).length ≤ tail.length + (Gcmd.save x).length ∧
      ((Gcmd.save x).length ≤ 8192 → tail = (Gcmd.commandsText (overwritten.flatMap (batchOf jobs))).drop (Gcmd.save x).length) ∧
      (tail = [] → ∃ g', loadGraph nd root (run nd order root jobs sched fs).fs = .done (.ok g') ∧
        SameGraph g' (GraphCommand.applyCommands ((seen ++ later).flatMap (batchOf jobs)) g)) := by
  obtain ⟨u1, i, v, rfl, l1, l2⟩ := first_change (fun u => NotLoaded ((run nd order root jobs u fs).pc b)) sched (.inl rfl) (by
    obtain ⟨ok, hf⟩ := hf
    rw [hf]
    rintro (h | ⟨_, h⟩) <;> cases h)
  have hib : i = b := by
    by_contra hne
    apply l2
    unfold run at l1 ⊢
    rw [List.foldl_append, pc_other [i] (by simpa using fun h : b = i => hne h.symm)]
    exact l1
  subst hib
  obtain ⟨log1, r1⟩ : ∃ log1, ReadInv nd root jobs c (fun _ => 0) log1 (run nd order root jobs u1 fs) := by
    rcases (readInv_init (nd := nd) (jobs := jobs) hr hc).run (order := order) hsmall ht u1 with ⟨b', hb', hl⟩ | ⟨log1, h⟩
    · rw [hone b' hb'] at hl
      exact absurd l1 hl
    · exact ⟨log1, by rw [List.nil_append] at h; exact h⟩
  -- the last `read`
  have i1 := r1.add
  have t1 := i1.terminated hsmall ht
  have p1 := r1.build i hb
  have e12 : run nd order root jobs (u1 ++ [i]) fs = step nd order root jobs (run nd order root jobs u1 fs) i := by
    unfold run
    rw [List.foldl_append]
    rfl
  rw [e12] at l2
  have efull : run nd order root jobs (u1 ++ i :: v) fs =
      v.foldl (step nd order root jobs) (step nd order root jobs (run nd order root jobs u1 fs) i) := by
    unfold run
    rw [List.foldl_append]
    rfl
  have s1wrote : ∀ (j : Nat) (cs : List GraphCommand), jobs[j]? = some (.add cs) → cs ≠ [] →
      (Wrote ((run nd order root jobs u1 fs).pc j) ↔ j ∈ log1.map Prod.fst) := fun j cs hj hne => by
    simpa using wrote_iff hsmall i1 hj hne
  rw [efull] at hf
  have e1 : logText log1 = _ := i1.serial hsmall
  have c1 : Content root (run nd order root jobs u1 fs).fs (c ++ logText log1) := i1.content
  rw [e1] at c1 t1
  have ld1 : loadGraph nd root (run nd order root jobs u1 fs).fs =
      .done (.ok (GraphCommand.applyCommands ((log1.map Prod.fst).flatMap (batchOf jobs)) g)) :=
    (loadGraph_content c1).2 (C14_append_applies nd c g _ ht ((loadGraph_content hc).1 hg))
  obtain ⟨hg1, _⟩ := loadGraph_built ld1
  obtain ⟨hgb, _⟩ := loadGraph_built hg
  obtain ⟨f1, f2⟩ := step_build_eq (nd := nd) (order := order) (root := root) hb (run nd order root jobs u1 fs)
  obtain ⟨f3, f4⟩ : (stepBuild nd (order i) root ((run nd order root jobs u1 fs).pc i) (run nd order root jobs u1 fs).fs).1 =
        (run nd order root jobs u1 fs).fs ∧
      (step nd order root jobs (run nd order root jobs u1 fs) i).pc i =
        .loaded (order i (GraphCommand.applyCommands ((log1.map Prod.fst).flatMap (batchOf jobs)) g)) := by
    rw [f2] at l2 ⊢
    generalize (run nd order root jobs u1 fs).pc i = pc at p1 l1 l2
    cases p1 with
    | start =>
      simp only [stepBuild, stepOpen_content c1] at l2
      exact absurd (.inr ⟨_, rfl⟩) l2
    | reading h =>
      rw [e1] at h
      rcases stepRead_terminated (nd := nd) c1 t1 h with ⟨r', e, _, _⟩ | e
      · simp only [stepBuild, e] at l2
        exact absurd (.inr ⟨_, rfl⟩) l2
      · rw [← loadGraph_lines c1, ld1] at e
        simp only [stepBuild, e, and_self]
    | answered _ _ => rcases l1 with h | ⟨_, h⟩ <;> cases h
  generalize hg1' : GraphCommand.applyCommands ((log1.map Prod.fst).flatMap (batchOf jobs)) g = g1 at *
  have j1 : AddInv root jobs c [] log1 (step nd order root jobs (run nd order root jobs u1 fs) i) := i1.quiet hb (fun _ => by simp) f3
  -- until the file is truncated
  have hmem : i ∈ v := by
    by_contra hno
    rw [pc_other v hno, f4] at hf
    obtain ⟨ok, hf⟩ := hf
    cases hf
  obtain ⟨u2, v, rfl, hu2⟩ := first_mem hmem
  obtain ⟨log2, j2⟩ := j1.run (nd := nd) (order := order) u2 (fun j hj h => hu2 (hone j h ▸ hj))
  have p2 := pc_other (nd := nd) (order := order) (root := root) (jobs := jobs) u2 hu2 (step nd order root jobs (run nd order root jobs u1 fs) i)
  rw [f4] at p2
  have e2 : run nd order root jobs (u1 ++ i :: u2) fs =
      u2.foldl (step nd order root jobs) (step nd order root jobs (run nd order root jobs u1 fs) i) := by
    unfold run
    rw [List.foldl_append]
    rfl
  rw [← e2] at j2 p2
  have s2wrote : ∀ (j : Nat) (cs : List GraphCommand), jobs[j]? = some (.add cs) → cs ≠ [] →
      (Wrote ((run nd order root jobs (u1 ++ i :: u2) fs).pc j) ↔ j ∈ (log1 ++ log2).map Prod.fst) := fun j cs hj hne => by
    simpa using wrote_iff hsmall j2 hj hne
  rw [List.foldl_append, List.foldl_cons, ← e2] at hf
  obtain ⟨k1, k2⟩ := step_build_eq (nd := nd) (order := order) (root := root) hb (run nd order root jobs (u1 ++ i :: u2) fs)
  have c2 := j2.content
  unfold Content at c2
  rw [p2] at k1 k2
  simp only [stepBuild, createTruncate, c2] at k1 k2
  have j3 : AddInv root jobs ([] ++ []) ([] ++ (log1 ++ log2)) [] (step nd order root jobs (run nd order root jobs (u1 ++ i :: u2) fs) i) := by
    refine j2.rebase hb ?_ ?_
    · rw [k1]; exact ready_set_command j2.ready _
    · rw [k1]; exact FS.set_self _ _ _
  -- the writes
  obtain ⟨u3, u4, log3, log4, tail, m1, m2, m3, m4, m5, m6, m7, m8, _⟩ := rewrite_run hb hone (saveWrites (order i g1)) v [] [] _ _ j3 k2 hf
  subst m1
  have e3 : run nd order root jobs ((u1 ++ i :: u2) ++ i :: u3) fs =
      u3.foldl (step nd order root jobs) (step nd order root jobs (run nd order root jobs (u1 ++ i :: u2) fs) i) := by
    unfold run
    rw [List.foldl_append]
    rfl
  have e4 : run nd order root jobs (u1 ++ i :: (u2 ++ i :: (u3 ++ u4))) fs =
      (u3 ++ u4).foldl (step nd order root jobs) (step nd order root jobs (run nd order root jobs (u1 ++ i :: u2) fs) i) := by
    rw [e2]
    unfold run
    rw [List.foldl_append, List.foldl_cons, List.foldl_append, List.foldl_cons]
  rw [← e3] at m3 m4
  rw [← e4] at m5
  rw [saveWrites_flatten] at m4 m5 m7 m8
  simp only [List.nil_append] at m4 m5 m6 m7 m8
  obtain ⟨q1, q2, q3⟩ := small_order m5.ok m5.known hsmall
  have x3 : logText log3 = _ := log_text (jobs := jobs) (log := log3) (fun p hp => q2 p (by simp [hp]))
  have x4 : logText log4 = _ := log_text (jobs := jobs) (log := log4) (fun p hp => q2 p (by simp [hp]))
  have c4 : Content root (run nd order root jobs (u1 ++ i :: (u2 ++ i :: (u3 ++ u4))) fs).fs (Gcmd.save (order i g1) ++ tail ++ logText log4) := m5.content
  rw [x4] at c4
  rw [x3] at m6 m7 m8
  have hbx : Built (order i g1) := hg1.reorder (ho i g1)
  have hsame : SameGraph (order i g1) g1 := by
    rw [sameGraph_iff]
    exact toSet_perm hg1.wf (ho i g1)
  refine ⟨u1, u2, u3, u4, log1.map Prod.fst, log2.map Prod.fst, log3.map Prod.fst, log4.map Prod.fst, order i g1, tail, by simp, l1,
    by rw [e12]; exact l2, hu2, m2, m3, by simpa using q1, ?_, ?_, hbx, ?_, c4, m6, m7, ?_, ?_⟩
  · intro j hj
    obtain ⟨p, hp, rfl⟩ : ∃ p ∈ log1 ++ log2 ++ log3 ++ log4, p.1 = j := by
      rw [← List.map_append, ← List.map_append, ← List.map_append] at hj
      exact List.mem_map.1 hj
    exact m5.known p (by simpa [or_assoc] using hp)
  · intro j cs hj hne
    refine ⟨s1wrote j cs hj hne, ?_, ?_, ?_⟩
    · simpa using s2wrote j cs hj hne
    · simpa using wrote_iff hsmall m4 hj hne
    · simpa using wrote_iff hsmall m5 hj hne
  · rw [hg1']
    exact hsame
  · intro hl
    refine m8 ?_
    rw [saveWrites_small hl]
    split <;> simp
  · intro htail
    subst htail
    rw [List.append_nil] at c4
    obtain ⟨g2, w1, w2, w3⟩ := C09_gcmd_round_trip nd (order i g1) hbx
    refine ⟨GraphCommand.applyCommands ((log4.map Prod.fst).flatMap (batchOf jobs)) g2, ?_, ?_⟩
    · exact (loadGraph_content c4).2 (C14_append_applies nd _ g2 _ (C14_saved_files_terminated _).1 w1)
    · rw [sameGraph_iff] at w3 hsame ⊢
      rw [List.flatMap_append, toSet_applyCommands w2.wf, toSet_applyCommands hgb.wf, run_append,
        ← toSet_applyCommands hgb.wf, hg1', w3, hsame]

/-- `C70_exact_partial` for a build and two additions, in any schedule that lets the build finish. -/
example (ho : ∀ i, IsOrder (order i)) (sched : List Nat)
    (hf : Finished ((run nd order [['d']] [.build, .add [.AddVertex 2], .add [.AddVertex 3]] sched (sampleFS (Gcmd.commandsText [.AddVertex 1]))).pc 0)) :
    ∃ (seen later : List Nat) (x : DirectedGraph) (tail : Text),
      SameGraph x (GraphCommand.applyCommands (seen.flatMap (batchOf [.build, .add [.AddVertex 2], .add [.AddVertex 3]]))
        (GraphCommand.applyCommands [.AddVertex 1] .new)) ∧
      Content [['d']] (run nd order [['d']] [.build, .add [.AddVertex 2], .add [.AddVertex 3]] sched (sampleFS (Gcmd.commandsText [.AddVertex 1]))).fs
        (Gcmd.save x ++ tail ++ Gcmd.commandsText (later.flatMap (batchOf [.build, .add [.AddVertex 2], .add [.AddVertex 3]]))) := by
  obtain ⟨_, _, _, _, seen, _, _, later, x, tail, _, _, _, _, _, _, _, _, _, _, h1, h2, _⟩ := C70_exact_partial nd order ho [['d']]
    [.build, .add [.AddVertex 2], .add [.AddVertex 3]] 0 rfl (by rintro (_ | _ | _ | i) h <;> first | rfl | simp at h)
    (by rintro (_ | _ | _ | i) cs h <;> simp at h <;> subst h <;> decide) sched _ _ _ (sampleFS_ready _) rfl (.inr (by decide))
    (load_sample nd [.AddVertex 1]) hf
  exact ⟨seen, later, x, tail, h1, h2⟩

/-- The additions 1, 2, 3 and 4 write in the first, second, third and last part. gc-build (process 0) saves a graph with 24 bytes, so the third
addition is overwritten as a whole. -/
example : let jobs : List Job := [.build, .add [.AddVertex 2], .add [.AddVertex 3], .add [.AddVertex 4], .add [.AddVertex 5]]
    let s (u : List Nat) := run (fun _ => false) (fun _ => id) [['d']] jobs u (sampleFS "AddVertex 1\n".toList)
    let u1 := [0, 0, 1, 1, 1, 1, 0]
    let u2 := [2, 2, 2, 2]
    let u3 := [3, 3, 3, 3, 0]
    let u4 := [4, 4, 4, 4, 0, 1, 1, 2, 2, 3, 3, 4, 4]
    ((s u1).pc 0 matches .reading _) ∧ ((s (u1 ++ [0])).pc 0 matches .loaded _) ∧
      ((s ((u1 ++ 0 :: u2) ++ 0 :: u3)).pc 0 matches .rewriting _ []) ∧ ((s ((u1 ++ 0 :: u2) ++ 0 :: u3 ++ u4)).pc 0 matches .finished true) ∧
      (s (u1 ++ 0 :: u2)).fs (commandPath [['d']]) = some (.file "AddVertex 1\nAddVertex 2\nAddVertex 3\n".toList) ∧
      (s ((u1 ++ 0 :: u2) ++ 0 :: u3)).fs (commandPath [['d']]) = some (.file "AddVertex 1\nAddVertex 2\n".toList) ∧
      (s ((u1 ++ 0 :: u2) ++ 0 :: u3 ++ u4)).fs (commandPath [['d']]) = some (.file "AddVertex 1\nAddVertex 2\nAddVertex 5\n".toList) := by
  decide +kernel

end Concurrent
end GC
