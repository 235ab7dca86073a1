/-
C126: commands do not wait for each other.
-/
import Verif.Proofs.NoWait
import Verif.Props.Unlink
import Verif.Props.Pieces
namespace GC
namespace Unlink
open Store Text Format Concurrent

variable (nd : Char → Bool) (order : Nat → DirectedGraph → DirectedGraph)

/-- C126 for gc-add and gc-delete: whatever the other processes do or fail to do, and whatever is in the directory, an addition returned as soon as
it made two steps for each of its commands and five more. -/
theorem C126_add (root : FPath) (jobs : List Job) (schedule : List Nat) (fs : FS) (i : Nat) (cs : List GraphCommand)
    (hj : jobs[i]? = some (.add cs)) (hn : 2 * cs.length + 5 ≤ schedule.count i) :
    Returned ((run nd order root jobs schedule fs).pc i) := by
  have h := run_left (nd := nd) (order := order) (root := root) hj (fs := fs) (fun _ => True) (leftAdd (addWrites cs).length) _ (Nat.le_refl _)
    (fun w pc k _ h => leftAdd_step cs w pc k h) schedule (fun _ _ => trivial)
  have hl := addWrites_length cs
  rw [Nat.sub_eq_zero_of_le (by omega)] at h
  unfold leftAdd at h
  split at h <;> first | omega | exact .inl ⟨_, ‹_›⟩ | exact h.elim

/-- C126 for gc-init, which makes two steps. -/
theorem C126_init (root : FPath) (jobs : List Job) (schedule : List Nat) (fs : FS) (i : Nat)
    (hj : jobs[i]? = some .init) (hn : 2 ≤ schedule.count i) : Returned ((run nd order root jobs schedule fs).pc i) := by
  have h := run_left (nd := nd) (order := order) (root := root) hj (fs := fs) (fun _ => True) leftInit 2 (Nat.le_refl _)
    (fun w pc k _ h => leftInit_step w pc k h) schedule (fun _ _ => trivial)
  rw [Nat.sub_eq_zero_of_le hn] at h
  unfold leftInit at h
  split at h <;> first | omega | exact .inl ⟨_, ‹_›⟩ | exact h.elim

/-- C126 for gc-clean, which makes at most seven steps. -/
theorem C126_clean (root : FPath) (jobs : List Job) (schedule : List Nat) (fs : FS) (i : Nat)
    (hj : jobs[i]? = some .clean) (hn : 7 ≤ schedule.count i) : Returned ((run nd order root jobs schedule fs).pc i) := by
  have h := run_left (nd := nd) (order := order) (root := root) hj (fs := fs) (fun _ => True) (leftClean 0) 7 (Nat.le_refl _)
    (fun w pc k _ h => by
      by_cases hu : ∃ ok, pc = .unlocking ok
      · obtain ⟨ok, rfl⟩ := hu
        exact leftClean_unlock w ok _
      · exact leftClean_step w pc k (fun ok e => hu ⟨ok, e⟩) h) schedule (fun _ _ => trivial)
  rw [Nat.sub_eq_zero_of_le hn] at h
  unfold leftClean at h
  split at h <;> first | omega | exact .inl ⟨_, ‹_›⟩ | exact h.elim

/-- C126 for gc-random, once it generated its graph and was confirmed: three steps for each vertex, five for each edge, and eleven more. -/
theorem C126_random (ho : ∀ i, IsOrder (order i)) (root : FPath) (jobs : List Job) (schedule : List Nat) (fs : FS) (i : Nat) (g : DirectedGraph)
    (hj : jobs[i]? = some (.random g)) (hn : 3 * g.vertices.length + 5 * g.edges.length + 11 ≤ schedule.count i) :
    Returned ((run nd order root jobs schedule fs).pc i) := by
  have h := run_left (nd := nd) (order := order) (root := root) hj (fs := fs) (fun _ => True) (leftRandom (order i g)) _ (Nat.le_refl _)
    (fun w pc k _ h => leftRandom_step w pc k h) schedule (fun _ _ => trivial)
  have hl := saveWrites_length (order i g)
  have hs := order_size (ho i) g
  rw [hs.1, hs.2] at hl
  rw [Nat.sub_eq_zero_of_le (by omega)] at h
  unfold leftRandom at h
  split at h
  · omega
  · omega
  · exact absurd h.2 (by omega)
  · exact absurd h (by simp [leftSave])
  · unfold leftClean at h
    split at h <;> first | omega | exact .inl ⟨_, ‹_›⟩ | exact h.elim

/-- C126 for queries: if the command files never hold more than `size` characters, a query has loaded its graph, or failed to, as soon as it made
two steps for each character and two more. -/
theorem C126_query (root : FPath) (jobs : List Job) (schedule : List Nat) (fs : FS) (i size : Nat) (hj : jobs[i]? = some .query)
    (hs : SizesWithin nd order root jobs schedule fs size) (hn : 2 * size + 2 ≤ schedule.count i) :
    Returned ((run nd order root jobs schedule fs).pc i) := by
  have h := run_left (nd := nd) (order := order) (root := root) hj (fs := fs)
    (fun w => ∀ h t, w.content root h = some t → t.length ≤ size) (leftQuery size) _ (Nat.le_refl _)
    (fun w pc k hw h => leftQuery_step w hw pc k h) schedule hs
  rw [Nat.sub_eq_zero_of_le hn] at h
  unfold leftQuery at h
  split at h
  · omega
  · have := h.2
    unfold leftReader at this
    split at this <;> omega
  · exact .inr ⟨_, ‹_›⟩
  · exact h.elim

/-- C126 for gc-build: if the command files never hold more than `size` characters, gc-build returned as soon as it made thirteen steps for each
character and four more. -/
theorem C126_build (ho : ∀ i, IsOrder (order i)) (root : FPath) (jobs : List Job) (schedule : List Nat) (fs : FS) (i size : Nat)
    (hj : jobs[i]? = some .build) (hs : SizesWithin nd order root jobs schedule fs size) (hn : 13 * size + 4 ≤ schedule.count i) :
    Returned ((run nd order root jobs schedule fs).pc i) := by
  have h := run_left (nd := nd) (order := order) (root := root) hj (fs := fs)
    (fun w => ∀ h t, w.content root h = some t → t.length ≤ size) (leftBuild size) _ (Nat.le_refl _)
    (fun w pc k hw h => leftBuild_step (ho i) w hw pc k h) schedule hs
  rw [Nat.sub_eq_zero_of_le hn] at h
  unfold leftBuild at h
  split at h <;> first | omega | exact .inl ⟨_, ‹_›⟩ | exact h.elim

/-- C126: how large the command files can become if there is no gc-build and no gc-random: not larger than the first one and all batches
together. So a query beside any number of other processes returned as soon as it made two steps for each of these characters and two more. -/
theorem C126_query_beside (root : FPath) (jobs : List Job) (ho : NoRewrite jobs) (schedule : List Nat) (fs : FS) (c : Text) (hc : Content root fs c)
    (i : Nat) (hj : jobs[i]? = some .query) (hn : 2 * (c.length + batchSizes jobs) + 2 ≤ schedule.count i) :
    Returned ((run nd order root jobs schedule fs).pc i) :=
  C126_query nd order root jobs schedule fs i _ hj (sizes_within ho hc schedule) hn

/-- For `C126_add`: an addition (0) beside another (1) that stopped for ever in the block, with the lock file there. -/
example : let s := run (fun _ => false) (fun _ => id) [['d']] [.add [.AddVertex 2], .add [.AddVertex 3]] ([1, 1, 1] ++ List.replicate 7 0) (sampleFS "AddVertex 1\n".toList)
    (s.pc 1 matches .writing _ _) ∧ Returned (s.pc 0) :=
  ⟨by decide +kernel, C126_add (fun _ => false) (fun _ => id) [['d']] _ _ _ 0 [.AddVertex 2] rfl (by decide)⟩

/-- For `C126_init` and `C126_clean`: the same, with gc-init and gc-clean. -/
example : let s := run (fun _ => false) (fun _ => id) [['d']] [.init, .clean, .add [.AddVertex 3]] ([2, 2, 2] ++ [1, 0, 1, 1, 0, 1, 1, 1, 1]) (sampleFS "AddVertex 1\n".toList)
    (s.pc 2 matches .writing _ _) ∧ Returned (s.pc 0) ∧ Returned (s.pc 1) :=
  ⟨by decide +kernel, C126_init (fun _ => false) (fun _ => id) [['d']] _ _ _ 0 rfl (by decide),
    C126_clean (fun _ => false) (fun _ => id) [['d']] _ _ _ 1 rfl (by decide)⟩

/-- For `C126_random`: gc-random (0) with a graph with two vertices and an edge, beside an addition (1) that stopped. -/
example : let s := run (fun _ => false) (fun _ => id) [['d']] [.random (GraphCommand.applyCommands [.AddEdge 7 8] .new), .add [.AddVertex 3]] ([1, 1, 1] ++ List.replicate 22 0) (sampleFS "AddVertex 1\n".toList)
    (s.pc 1 matches .writing _ _) ∧ Returned (s.pc 0) :=
  ⟨by decide +kernel, C126_random (fun _ => false) (fun _ => id) (fun _ _ => List.Perm.refl _) [['d']] _ _ _ 0 _ rfl (by decide)⟩

/-- For `C126_query_beside` (and `C126_query`): the processes beside `C94_lives_partial`, one of which stopped for ever. -/
example : let s := run (fun _ => false) (fun _ => id) [['d']] exJobs ([0, 0, 0] ++ [1, 1] ++ List.replicate 74 2) (sampleFS "AddVertex 1\n".toList)
    (s.pc 0 matches .writing _ _) ∧ Returned (s.pc 2) :=
  ⟨by decide +kernel, C126_query_beside (fun _ => false) (fun _ => id) [['d']] exJobs ⟨exJobs_ordinary.1, exJobs_ordinary.2.1⟩ _ _ _
    (sample_content _) 2 rfl (by decide +kernel)⟩

/-- For `C126_build`: gc-build (1) after an addition (0) stopped with the lock file there. The command file has twelve characters all the time. -/
theorem exBuild_sizes : SizesWithin (fun _ => false) (fun _ => id) [['d']] [.add [.AddVertex 2], .build] ([0, 0, 0] ++ List.replicate 160 1)
    (sampleFS "AddVertex 1\n".toList) 12 := by
  have key : ∀ n, ((List.replicate n 1).foldl (step (fun _ => false) (fun _ => id) [['d']] [.add [.AddVertex 2], .build])
      (run (fun _ => false) (fun _ => id) [['d']] [.add [.AddVertex 2], .build] ([0, 0, 0] ++ [1, 1, 1, 1, 1, 1])
        (sampleFS "AddVertex 1\n".toList))).world =
      (run (fun _ => false) (fun _ => id) [['d']] [.add [.AddVertex 2], .build] ([0, 0, 0] ++ [1, 1, 1, 1, 1, 1])
        (sampleFS "AddVertex 1\n".toList)).world ∧
      ((List.replicate n 1).foldl (step (fun _ => false) (fun _ => id) [['d']] [.add [.AddVertex 2], .build])
      (run (fun _ => false) (fun _ => id) [['d']] [.add [.AddVertex 2], .build] ([0, 0, 0] ++ [1, 1, 1, 1, 1, 1])
        (sampleFS "AddVertex 1\n".toList))).pc 1 = .finished true := by
    intro n
    induction n with
    | zero => exact ⟨rfl, rfl⟩
    | succ n ih =>
      rw [List.replicate_succ', List.foldl_append]
      generalize (List.replicate n 1).foldl _ _ = s at ih
      obtain ⟨h1, h2⟩ := ih
      dsimp only [List.foldl_cons, List.foldl_nil, step, List.getElem?_cons_succ, List.getElem?_cons_zero]
      rw [h2]
      exact ⟨h1, rfl⟩
  intro p hp k t ht
  have hcases : (∃ n, n < 9 ∧ p = ([0, 0, 0] ++ List.replicate 160 1).take n) ∨ ∃ n, p = ([0, 0, 0] ++ [1, 1, 1, 1, 1, 1]) ++ List.replicate n 1 := by
    obtain ⟨n, rfl⟩ : ∃ n, p = ([0, 0, 0] ++ List.replicate 160 1).take n := ⟨p.length, List.prefix_iff_eq_take.1 hp⟩
    by_cases hn : n < 9
    · exact .inl ⟨n, hn, rfl⟩
    · obtain ⟨m, rfl⟩ : ∃ m, n = 9 + m := ⟨n - 9, by omega⟩
      refine .inr ⟨min m 154, ?_⟩
      rw [show ([0, 0, 0] ++ List.replicate 160 1 : List Nat) = ([0, 0, 0] ++ [1, 1, 1, 1, 1, 1]) ++ List.replicate 154 1 from rfl,
        List.take_append, List.take_of_length_le (by simp)]
      simp only [List.take_replicate, List.length_append, List.length_cons, List.length_nil]
      rw [show 9 + m - (0 + 1 + 1 + 1 + (0 + 1 + 1 + 1 + 1 + 1 + 1)) = m by omega]
  have hfile : ∀ w : World, w.gen = 0 → w.orphan 1 = [] → (∀ k, w.orphan k = w.orphan 1) → (∀ t, w.content [['d']] 0 = some t → t.length ≤ 12) →
      ∀ k t, w.content [['d']] k = some t → t.length ≤ 12 := by
    intro w h0 h1 h2 h3 k t ht
    by_cases hk : k = 0
    · exact h3 t (hk ▸ ht)
    · unfold World.content at ht
      rw [if_neg (by omega), h2, h1] at ht
      cases ht
      simp
  have hfin : ∀ t, World.content [['d']] (run (fun _ => false) (fun _ => id) [['d']] [.add [.AddVertex 2], .build] ([0, 0, 0] ++ [1, 1, 1, 1, 1, 1])
        (sampleFS "AddVertex 1\n".toList)).world 0 = some t → t.length ≤ 12 := by
    intro t ht
    have e : World.content [['d']] (run (fun _ => false) (fun _ => id) [['d']] [.add [.AddVertex 2], .build] ([0, 0, 0] ++ [1, 1, 1, 1, 1, 1])
        (sampleFS "AddVertex 1\n".toList)).world 0 = some "AddVertex 1\n".toList := rfl
    rw [e] at ht
    cases ht
    decide
  rcases hcases with ⟨n, hn, rfl⟩ | ⟨n, rfl⟩
  · have : n = 0 ∨ n = 1 ∨ n = 2 ∨ n = 3 ∨ n = 4 ∨ n = 5 ∨ n = 6 ∨ n = 7 ∨ n = 8 := by omega
    rcases this with rfl | rfl | rfl | rfl | rfl | rfl | rfl | rfl | rfl <;>
    · refine hfile _ rfl rfl (fun _ => rfl) (fun t ht => ?_) k t ht
      cases ht
      decide
  · unfold run at ht
    rw [List.foldl_append] at ht
    have := (key n).1
    unfold run at this
    rw [this] at ht
    exact hfile _ rfl rfl (fun _ => rfl) hfin k t ht

example : let s := run (fun _ => false) (fun _ => id) [['d']] [.add [.AddVertex 2], .build] ([0, 0, 0] ++ List.replicate 160 1) (sampleFS "AddVertex 1\n".toList)
    (s.pc 0 matches .writing _ _) ∧ Returned (s.pc 1) :=
  ⟨by decide +kernel, C126_build (fun _ => false) (fun _ => id) (fun _ _ => List.Perm.refl _) [['d']] _ _ _ 1 12 rfl exBuild_sizes (by decide +kernel)⟩

end Unlink
end GC
