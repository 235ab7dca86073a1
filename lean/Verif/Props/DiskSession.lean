/- C123: sessions on a disk that can be full. -/
import Verif.Proofs.DiskSession
import Verif.Props.Faults
import Verif.Props.Disk
namespace GC
namespace Disk
open Store Text

/-- C123: every command that changes the stored graph, on any file system and with any amount of free room, compared with the same command on
a disk without a limit: the command file is cut off at the room there is, and everything else is the same. If nothing is cut off, the exit
code is the same. gc-init, gc-add and gc-delete never say that something was cut off; the others do if that is more than 8192 bytes. -/
theorem C123_one_command (nd : Char → Bool) (root : FPath) (cmd : Cmd) (fs : FS) (free : Nat) :
    ∃ e, exec nd root cmd fs free =
        (cutOff root (free + storedBytes root fs) (Store.exec nd root cmd fs).1,
          free + storedBytes root fs - storedBytes root (Store.exec nd root cmd fs).1, e) ∧
      (storedBytes root (Store.exec nd root cmd fs).1 ≤ free + storedBytes root fs ∨ cmd.OnlyAppends → e = (Store.exec nd root cmd fs).2) ∧
      (free + storedBytes root fs + 8192 < storedBytes root (Store.exec nd root cmd fs).1 ∧ ¬ cmd.OnlyAppends → e = .panic) :=
  exec_cut nd root cmd fs free

/-- The room for the command file and the free room, together, do not change. -/
theorem exec_total (nd : Char → Bool) (root : FPath) (cmd : Cmd) (fs : FS) (free : Nat) :
    (exec nd root cmd fs free).2.1 + storedBytes root (exec nd root cmd fs free).1 = free + storedBytes root fs := by
  obtain ⟨e, h, _⟩ := exec_cut nd root cmd fs free
  rw [h]
  dsimp only
  rw [stored_cutOff]
  omega

/-- C123: no room is lost and none is gained, whatever is run: the free bytes and those of the command file make the same sum. -/
theorem C123_room_kept (nd : Char → Bool) (root : FPath) (l : List Cmd) : ∀ (fs : FS) (free : Nat),
    (session nd root l fs free).2.1 + storedBytes root (session nd root l fs free).1 = free + storedBytes root fs := by
  induction l with
  | nil => exact fun fs free => rfl
  | cons cmd l ih =>
    intro fs free
    exact (ih _ _).trans (exec_total nd root cmd fs free)

/-- C123: if the command file never gets larger than the room there is, every command does what it does without a limit, with the same exit
codes. -/
theorem C123_enough_room (nd : Char → Bool) (root : FPath) (l : List Cmd) : ∀ (fs : FS) (free : Nat),
    (∀ k, storedBytes root (Store.session nd root (l.take k) fs).1 ≤ free + storedBytes root fs) →
    session nd root l fs free = ((Store.session nd root l fs).1,
      free + storedBytes root fs - storedBytes root (Store.session nd root l fs).1, (Store.session nd root l fs).2) := by
  induction l with
  | nil =>
    intro fs free _
    show (fs, free, []) = (fs, free + storedBytes root fs - storedBytes root fs, [])
    rw [Nat.add_sub_cancel]
  | cons cmd l ih =>
    intro fs free h
    have h1 := h 1
    have h1 : storedBytes root (Store.exec nd root cmd fs).1 ≤ free + storedBytes root fs := h1
    obtain ⟨e, he, hs, _⟩ := exec_cut nd root cmd fs free
    have hs := hs (.inl h1)
    subst hs
    rw [cutOff_enough h1] at he
    have ih := ih (Store.exec nd root cmd fs).1 (free + storedBytes root fs - storedBytes root (Store.exec nd root cmd fs).1) (by
      intro k
      rw [Nat.sub_add_cancel h1]
      exact h (k + 1))
    rw [Nat.sub_add_cancel h1] at ih
    unfold session
    rw [he]
    dsimp only
    rw [ih]
    rfl

/-- C123: gc-init, gc-add and gc-delete, in any order and any number: the command file is the beginning that fits of the one without a limit,
everything else is the same, and the exit codes too. -/
theorem C123_appends (nd : Char → Bool) (root : FPath) (l : List Cmd) : ∀ (fs : FS) (free : Nat), (∀ cmd ∈ l, cmd.OnlyAppends) →
    session nd root l fs free = (cutOff root (free + storedBytes root fs) (Store.session nd root l fs).1,
      free + storedBytes root fs - storedBytes root (Store.session nd root l fs).1, (Store.session nd root l fs).2) := by
  suffices key : ∀ (l : List Cmd) (n : Nat) (fs : FS), (∀ cmd ∈ l, cmd.OnlyAppends) →
      session nd root l (cutOff root n fs) (n - storedBytes root fs) = (cutOff root n (Store.session nd root l fs).1,
        n - storedBytes root (Store.session nd root l fs).1, (Store.session nd root l fs).2) by
    intro fs free hl
    have := key l (free + storedBytes root fs) fs hl
    rwa [cutOff_enough (by omega), Nat.add_sub_cancel] at this
  intro l
  induction l with
  | nil => exact fun n fs _ => rfl
  | cons cmd l ih =>
    intro n fs hl
    have hc := hl cmd (.head _)
    obtain ⟨e, he, hs, _⟩ := exec_cut nd root cmd (cutOff root n fs) (n - storedBytes root fs)
    have hs := hs (.inr hc)
    subst hs
    have hn : n - storedBytes root fs + storedBytes root (cutOff root n fs) = n := by rw [stored_cutOff]; omega
    obtain ⟨p1, p2⟩ := prefixwise_exec nd hc n fs
    rw [hn, p1, p2, sub_stored p1] at he
    unfold session
    rw [he]
    dsimp only
    rw [ih n _ fun c h => hl c (.tail _ h)]
    rfl

/-- C123: what is stored after gc-init, gc-add and gc-delete on a disk with little room. Without a limit, the commands `cs` would have been stored;
a number of them is, and then everything works with the graph they give; or in addition a piece of the next line is at the end of the file
(for which see C91: `C91_torn_line_partial`). -/
theorem C123_appended (nd : Char → Bool) (root : FPath) (fs : FS) (free : Nat) (G : SetGraph) (h : Holds nd root fs (some G)) (l : List Cmd)
    (hl : ∀ cmd ∈ l, cmd.OnlyAppends) :
    ∃ cs, Holds nd root (Store.session nd root l fs).1 (some (G.run cs)) ∧
      ∃ k, k ≤ cs.length ∧ (Holds nd root (session nd root l fs free).1 (some (G.run (cs.take k))) ∨
        ∃ c t next base, Ready root (session nd root l fs free).1 ∧ Content root (session nd root l fs free).1 (c ++ t) ∧
          NewlineTerminated c ∧ Format.Gcmd.readAsCommands nd c = .done (.ok base) ∧
          (GraphCommand.applyCommands base .new).toSet = G.run (cs.take k) ∧
          cs[k]? = some next ∧ t ≠ [] ∧ t <+: Format.Gcmd.commandIntoLine next) := by
  obtain ⟨hr, c, g, hc1, ht, hg, hG⟩ := h
  have hhas : Has root c fs := ⟨hr, hc1⟩
  have main : ∀ (l : List Cmd) (fs : FS) (c : Text), Has root c fs → (∀ cmd ∈ l, cmd.OnlyAppends) →
      ∃ cs, Has root (c ++ Format.Gcmd.commandsText cs) (Store.session nd root l fs).1 := by
    intro l
    induction l with
    | nil => exact fun fs c h _ => ⟨[], by rw [commandsText_nil, List.append_nil]; exact h⟩
    | cons cmd l ih =>
      intro fs c h hl
      have h1 : ∃ cs, Has root (c ++ Format.Gcmd.commandsText cs) (Store.exec nd root cmd fs).1 := by
        have := hl cmd (.head _)
        cases cmd with
        | init =>
          refine ⟨[], ?_⟩
          show Has root _ (Store.expectOk (Store.init root fs)).1
          rw [init_ready h.1, commandsText_nil, List.append_nil]
          exact h
        | add a => exact appends_gcAdd a fs c h
        | delete v e => exact appends_gcDelete v e fs c h
        | build order => exact this.elim
        | clean force answer => exact this.elim
        | random g order force answer => exact this.elim
      obtain ⟨cs, h1⟩ := h1
      obtain ⟨ds, h2⟩ := ih _ _ h1 fun c h => hl c (.tail _ h)
      exact ⟨cs ++ ds, by rw [commandsText_append, ← List.append_assoc]; exact h2⟩
  obtain ⟨cs, h3⟩ := main l fs c hhas hl
  have holds : ∀ (ds : List GraphCommand) (x : FS), Has root (c ++ Format.Gcmd.commandsText ds) x → Holds nd root x (some (G.run ds)) := by
    intro ds x hx
    refine ⟨hx.1, _, _, hx.2, newlineTerminated_append ht (terminated_commandsText ds), C14_append_applies nd c g ds ht hg, ?_⟩
    rw [← hG]
    exact toSet_applyCommands (loadGraph_built ((loadGraph_content hc1).2 hg)).1.wf ds
  refine ⟨cs, holds cs _ h3, ?_⟩
  rw [C123_appends nd root l fs free hl]
  have hsize : storedBytes root fs = c.length := by
    unfold storedBytes
    rw [show fs (commandPath root) = _ from hc1]
  have h2 : Has root (c ++ (Format.Gcmd.commandsText cs).take free) (cutOff root (free + storedBytes root fs) (Store.session nd root l fs).1) := by
    generalize (Store.session nd root l fs).1 = x at h3
    obtain ⟨⟨r1, r2, r3⟩, hx⟩ := h3
    have hx' : cutOff root (free + storedBytes root fs) x (commandPath root) = some (.file (c ++ (Format.Gcmd.commandsText cs).take free)) := by
      rw [cutOff_self, show x (commandPath root) = _ from hx, hsize]
      simp only [cutNode]
      rw [List.take_append, List.take_of_length_le (by omega : c.length ≤ free + c.length)]
      congr 4
      omega
    refine ⟨⟨fun q hq => ?_, ⟨_, hx'⟩, ?_⟩, hx'⟩
    · exact cutOff_dir (r1 q hq)
    · rw [cutOff_other (Ne.symm (lock_ne_command root))]
      exact r3
  obtain ⟨k, t, he, hk, hor⟩ := prefix_commandsText (List.take_prefix free (Format.Gcmd.commandsText cs))
  rw [he] at h2
  refine ⟨k, hk, ?_⟩
  rcases hor with rfl | ⟨next, hn, hne, hpre⟩
  · left
    rw [List.append_nil] at h2
    exact holds _ _ h2
  · right
    rw [← List.append_assoc] at h2
    have hload := C14_append_applies nd c g (cs.take k) ht hg
    obtain ⟨base, hbase, he⟩ := read_ok_commands hload
    refine ⟨_, t, next, base, h2.1, h2.2, newlineTerminated_append ht (terminated_commandsText _), hbase, ?_, hn, hne, hpre⟩
    rw [he, ← hG]
    exact toSet_applyCommands (loadGraph_built ((loadGraph_content hc1).2 hg)).1.wf _

/-- C123: a full disk is one of the ways in which calls can fail, so that C106 and C107 hold for it. -/
theorem C123_is_fault (nd : Char → Bool) (root : FPath) (cmd : Cmd) (fs : FS) (free : Nat) :
    Faults.Exec nd root cmd fs (exec nd root cmd fs free).1 (exec nd root cmd fs free).2.2 := exec_faults nd root cmd fs free

/-- C123: whatever was run while the disk was full, the directory can be used again: gc-clean and gc-init give an empty graph and all the room
back, and nothing outside `.graph` was touched but the lock file. -/
theorem C123_start_again (nd : Char → Bool) (root : FPath) (fs : FS) (free : Nat) (S : Option SetGraph) (h : Holds nd root fs S) (l : List Cmd)
    (answer : Text) :
    ∃ fs1 free1 es fs2 e, session nd root l fs free = (fs1, free1, es) ∧ Elsewhere root fs fs1 ∧
      session nd root [.clean true answer, .init] fs1 free1 = (fs2, free + storedBytes root fs, [e, .success]) ∧
      Holds nd root fs2 (some .empty) := by
  have hu := Faults.UsableFrom.ran (fs0 := fs) ⟨Holds.usable h, Elsewhere.refl root fs⟩ (session_faults (nd := nd) l fs free)
  obtain ⟨h1, fs2, e, h2, h3⟩ := Faults.C106_recovery nd root fs _ S h l (session_faults l fs free) answer
  have htot := C123_room_kept nd root l fs free
  generalize session nd root l fs free = x at h1 h2 htot hu
  rcases x with ⟨fs1, free1, es⟩
  dsimp only at h1 h2 htot hu
  refine ⟨fs1, free1, es, fs2, e, rfl, h1, ?_, h3⟩
  have hempty : storedBytes root fs2 = 0 := by
    obtain ⟨fc, r, c1, c2, _⟩ := hu.1.clean_fresh
    have hx : fs2 = (Store.init root fc).1 := by
      have e1 : (Store.exec nd root (.clean true answer) fs1).1 = fc := by
        show (Store.gcClean root true answer fs1).1 = _
        unfold Store.gcClean
        rw [if_neg (by simp), storeExpectOk_eq, c1]
      have e2 : (Store.session nd root [.clean true answer, .init] fs1).1 =
          (Store.expectOk (Store.init root (Store.exec nd root (.clean true answer) fs1).1)).1 := rfl
      rw [h2, e1, storeExpectOk_eq] at e2
      exact e2
    rw [hx, init_stored]
    unfold storedBytes
    rw [c2.2.1 _ (root_prefix_command root)]
  have hk : ∀ k, storedBytes root (Store.session nd root ([Cmd.clean true answer, .init].take k) fs1).1 ≤ free1 + storedBytes root fs1 := by
    have hcl : storedBytes root (Store.exec nd root (.clean true answer) fs1).1 ≤ storedBytes root fs1 := by
      show storedBytes root (Store.gcClean root true answer fs1).1 ≤ _
      unfold Store.gcClean
      rw [if_neg (by simp), storeExpectOk_eq]
      exact clean_stored fs1
    intro k
    match k with
    | 0 => exact Nat.le_add_left _ _
    | 1 => exact Nat.le_trans hcl (Nat.le_add_left _ _)
    | k + 2 =>
      have : [Cmd.clean true answer, .init].take (k + 2) = [.clean true answer, .init] := by simp
      rw [this, h2]
      dsimp only
      omega
  rw [C123_enough_room nd root _ fs1 free1 hk, h2]
  dsimp only
  rw [hempty, htot, Nat.sub_zero]

/-! ### Examples -/

/-- On a directory with an empty graph and room for 23 bytes: a vertex fits, of the edge 1 → 23 only a part, which is then taken for another
edge, and of the removal nothing. -/
def exSession : List Cmd :=
  [.add { vertex := some ["1".toList] }, .add { edge := some ["1".toList, "23".toList] }, .delete (some ["1".toList]) none]

/-- For `C123_appends` and `C123_appended`. -/
example : Holds (fun _ => false) [['d']] (sampleFS []) (some .empty) ∧ (∀ cmd ∈ exSession, cmd.OnlyAppends) ∧
    (session (fun _ => false) [['d']] exSession (sampleFS []) 23).1 (commandPath [['d']]) = some (.file "AddVertex 1\nAddEdge 1 2".toList) ∧
    (session (fun _ => false) [['d']] exSession (sampleFS []) 23).2 = (0, [.success, .success, .success]) := by
  refine ⟨sampleFS_holds _, ?_, by decide +kernel, by decide +kernel⟩
  intro cmd h
  simp only [exSession, List.mem_cons, List.not_mem_nil, or_false] at h
  rcases h with rfl | rfl | rfl <;> trivial

/-- For `C123_enough_room`: the command file has at most 42 bytes. -/
example : ∀ k, storedBytes [['d']] (Store.session (fun _ => false) [['d']] (exSession.take k) (sampleFS [])).1 ≤ 42 := by
  intro k
  match k with
  | 0 => decide +kernel
  | 1 => decide +kernel
  | 2 => decide +kernel
  | 3 => decide +kernel
  | k + 4 =>
    have : exSession.take (k + 4) = exSession := by simp [exSession]
    rw [this]
    decide +kernel

/-- For `C123_start_again`. -/
example : (session (fun _ => false) [['d']] (exSession ++ [.build id, .clean true [], .init]) (sampleFS []) 23).2 =
    (23, [.success, .success, .success, .success, .success, .success]) := by decide +kernel

end Disk
end GC
