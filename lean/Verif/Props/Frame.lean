/-
Property C115: graphs in different directories are independent. Specification: `Verif/Spec/Frame.lean`.
-/
import Verif.Proofs.Frame
import Verif.Spec.Stream
import Verif.Props.Crash
namespace GC
open Text Store

/-! ### C115 -/

/-- C115: from any state of the file system, a command changes nothing but the paths of its graph, except that it may create missing
directories on the way. -/
theorem C115_only_own (nd : Char → Bool) (root : FPath) (cmd : Cmd) (fs : FS) : OnlyOwn root fs (exec nd root cmd fs).1 :=
  (OnlyOwn.refl root fs).exec cmd

/-- C115: the same for a command that is killed at any point. -/
theorem C115_only_own_killed (nd : Char → Bool) (root : FPath) (cmd : Cmd) (fs fs' : FS) (h : Killed nd root cmd fs fs') :
    OnlyOwn root fs fs' := (OnlyOwn.refl root fs).killed h

/-- C115: the same if any calls to the file system fail. -/
theorem C115_only_own_faults (nd : Char → Bool) (root : FPath) (cmd : Cmd) (fs fs' : FS) (e : Exit) (h : Faults.Exec nd root cmd fs fs' e) :
    OnlyOwn root fs fs' := (OnlyOwn.refl root fs).executed h

theorem loadedGraph_congr {nd : Char → Bool} {order : DirectedGraph → DirectedGraph} {root : FPath} {fs fs' : FS}
    (h : loadGraph nd root fs' = loadGraph nd root fs) : Main.loadedGraph nd order root fs' = Main.loadedGraph nd order root fs := by
  unfold Main.loadedGraph
  rw [h]

theorem query_congr {H : ScoredHeap} {nd : Char → Bool} {order : DirectedGraph → DirectedGraph} {root : FPath} {fs fs' : FS}
    (h : loadGraph nd root fs' = loadGraph nd root fs) (q : Stream.Query) : q.text H nd order root fs' = q.text H nd order root fs := by
  cases q with
  | topoSort => unfold Stream.Query.text Main.gcTopoSort; rw [loadedGraph_congr h]
  | shortPath start end_ => unfold Stream.Query.text Main.gcShortPath; rw [loadedGraph_congr h]
  | csp start end_ a => unfold Stream.Query.text Main.gcCsp; rw [loadedGraph_congr h]
  | cycle act a => unfold Stream.Query.text Main.gcCycle; rw [loadedGraph_congr h]
  | desc path => unfold Stream.Query.text Store.gcDesc; rw [h]

/-- C115: whatever a command on the graph in `r'` does, even when it is killed or calls fail, the files of the graph in `r` stay as they
are, and the query commands in `r` give the same answers. -/
theorem C115_queries (nd : Char → Bool) (r r' : FPath) (ha : Apart r r') (cmd : Cmd) (fs fs' : FS)
    (h : fs' = (exec nd r' cmd fs).1 ∨ Killed nd r' cmd fs fs' ∨ ∃ e, Faults.Exec nd r' cmd fs fs' e) :
    (∀ q, Own r q → fs' q = fs q) ∧ loadGraph nd r fs' = loadGraph nd r fs ∧
    ∀ (H : ScoredHeap) (order : DirectedGraph → DirectedGraph) (q : Stream.Query),
      q.text H nd order r fs' = q.text H nd order r fs := by
  have ho : OnlyOwn r' fs fs' := by
    rcases h with rfl | h | ⟨e, h⟩
    · exact C115_only_own nd r' cmd fs
    · exact C115_only_own_killed nd r' cmd fs fs' h
    · exact C115_only_own_faults nd r' cmd fs fs' e h
  have hl : loadGraph nd r fs' = loadGraph nd r fs := loadGraph_congr (ho.own_eq ha (own_command r))
  exact ⟨fun q hq => ho.own_eq ha hq, hl, fun H order q => query_congr hl q⟩

/-- C115: commands in any number of directories, in any order. The commands in one of them have the exit codes they would have had without
those in the others, and they leave the same files behind. Its directory may be missing at the start, but no regular file may be in the way
to it. -/
theorem C115_sessions (nd : Char → Bool) (r : FPath) (l : List (FPath × Cmd)) (hl : ∀ p ∈ l, p.1 = r ∨ Apart r p.1) (fs : FS)
    (hw : WayFree fs r) :
    (∀ q, Own r q → (sessions nd l fs).1 q = (session nd r (ofDir r l) fs).1 q) ∧
    ofDir r (sessions nd l fs).2 = (session nd r (ofDir r l) fs).2 := by
  have h := Agree.sessions (nd := nd) l hl ⟨fun _ _ => rfl, wayFree_iff.1 hw, wayFree_iff.1 hw⟩
  exact ⟨h.1.1, h.2⟩

/-- C115: in particular, the graph that is stored in the directory at the end is the same, and so are the answers to all queries. -/
theorem C115_sessions_queries (nd : Char → Bool) (r : FPath) (l : List (FPath × Cmd)) (hl : ∀ p ∈ l, p.1 = r ∨ Apart r p.1) (fs : FS)
    (hw : WayFree fs r) :
    loadGraph nd r (sessions nd l fs).1 = loadGraph nd r (session nd r (ofDir r l) fs).1 ∧
    ∀ (H : ScoredHeap) (order : DirectedGraph → DirectedGraph) (q : Stream.Query),
      q.text H nd order r (sessions nd l fs).1 = q.text H nd order r (session nd r (ofDir r l) fs).1 := by
  have h := loadGraph_congr (nd := nd) ((C115_sessions nd r l hl fs hw).1 _ (own_command r))
  exact ⟨h, fun H order q => query_congr h q⟩

/-- A directory and a subdirectory, both with a graph; commands in turn. -/
def exTwoDirs : List (FPath × Cmd) :=
  [([], .init), (["sub".toList], .init), ([], .add { edge := some ["1".toList, "2".toList] }),
   (["sub".toList], .add { vertex := some ["7".toList] }), ([], .clean true []), (["sub".toList], .delete none (some ["x".toList]))]

theorem exTwoDirs_apart : Apart ["sub".toList] [] ∧ Apart [] ["sub".toList] := by
  have h : Apart [] ["sub".toList] := by
    refine ⟨by simp, ?_, ?_⟩ <;> rintro (h | h) <;> revert h <;> decide
  exact ⟨h.symm, h⟩

/-- `C115_queries`, `C115_sessions` and `C115_sessions_queries` for the directories `.` and `sub`. -/
example (nd : Char → Bool) := C115_queries nd ["sub".toList] [] exTwoDirs_apart.1 (.clean true []) (fun _ => none) _ (.inl rfl)
example (nd : Char → Bool) := And.intro
  (C115_sessions nd ["sub".toList] exTwoDirs (by
    intro p hp
    simp only [exTwoDirs, List.mem_cons, List.not_mem_nil, or_false] at hp
    rcases hp with rfl | rfl | rfl | rfl | rfl | rfl <;> first | exact .inl rfl | exact .inr exTwoDirs_apart.1) (fun _ => none) (fun q _ c h => by simp at h))
  (C115_sessions_queries nd ["sub".toList] exTwoDirs (by
    intro p hp
    simp only [exTwoDirs, List.mem_cons, List.not_mem_nil, or_false] at hp
    rcases hp with rfl | rfl | rfl | rfl | rfl | rfl <;> first | exact .inl rfl | exact .inr exTwoDirs_apart.1) (fun _ => none) (fun q _ c h => by simp at h))

/-- After the graph in the directory above was removed, the one in the subdirectory has its vertex; the last command panics. -/
example : WayFree (fun _ => none) ["sub".toList] ∧ (∀ p ∈ exTwoDirs, p.1 = ["sub".toList] ∨ Apart ["sub".toList] p.1) ∧
    (sessions (fun _ => false) exTwoDirs fun _ => none).1 ["sub".toList, ".graph".toList, "commands".toList] = some (.file "AddVertex 7\n".toList) ∧
    (sessions (fun _ => false) exTwoDirs fun _ => none).1 [".graph".toList] = none ∧
    ofDir ["sub".toList] (sessions (fun _ => false) exTwoDirs fun _ => none).2 = [.success, .success, .panic] := by
  refine ⟨fun q _ c h => by simp at h, ?_, ?_⟩
  · intro p hp
    simp only [exTwoDirs, List.mem_cons, List.not_mem_nil, or_false] at hp
    rcases hp with rfl | rfl | rfl | rfl | rfl | rfl
    · exact .inr exTwoDirs_apart.1
    · exact .inl rfl
    · exact .inr exTwoDirs_apart.1
    · exact .inl rfl
    · exact .inr exTwoDirs_apart.1
    · exact .inl rfl
  · decide +kernel

/-- The hypothesis `Apart` is needed: gc-clean removes a graph that was made below `.graph`, and a graph in a subdirectory named `lock` makes
the commands above it fail: the vertex is not stored. -/
example :
    (sessions (fun _ => false) [([], .init), ([".graph".toList], .init), ([], .clean true [])] fun _ => none).1
      [".graph".toList, ".graph".toList, "commands".toList] = none ∧
    (sessions (fun _ => false) [([], .init), (["lock".toList], .init), ([], .add { vertex := some ["7".toList] })] fun _ => none).1
      [".graph".toList, "commands".toList] = some (.file []) := by
  decide +kernel

end GC
