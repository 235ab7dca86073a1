/- C88: what is reported and what is stored when the disk is full. -/
import Verif.Proofs.Disk
import Verif.Props.Concurrent
import Verif.Props.Format

namespace GC
namespace Disk
open Store Text Concurrent

/-- C88, room for everything: gc-add does exactly what it does on an unlimited disk (`Store.gcAdd`), with the same exit. -/
theorem C88_room_add (root : FPath) (a : AddArgs) (fs : FS) : ∃ n, ∀ free, n ≤ free →
    (gcAdd root a fs free).1 = (Store.gcAdd root a fs).1 ∧ (gcAdd root a fs free).2.2 = (Store.gcAdd root a fs).2 := by
  refine ⟨optionBytes a.vertex (fun vs => .done (vs.map .AddVertex)) + (optionBytes a.edge (mkEdges a.reverse) +
    (optionBytes a.chain (mkChain a.reverse) + (optionBytes a.cycle (mkCycle a.reverse) + (optionBytes a.star (mkStar a.reverse) +
    optionBytes a.clique mkClique)))), fun free h => ?_⟩
  suffices h : ∃ free', free ≤ free' + (optionBytes a.vertex (fun vs => .done (vs.map .AddVertex)) + (optionBytes a.edge (mkEdges a.reverse) +
    (optionBytes a.chain (mkChain a.reverse) + (optionBytes a.cycle (mkCycle a.reverse) + (optionBytes a.star (mkStar a.reverse) +
    optionBytes a.clique mkClique))))) ∧
      gcAdd root a fs free = ((Store.gcAdd root a fs).1, free', (Store.gcAdd root a fs).2) by
    obtain ⟨free', _, h⟩ := h
    rw [h]
    exact ⟨rfl, rfl⟩
  refine andThen_room h (mutateStep_room (Nat.le_trans (Nat.le_add_right _ _) h)) fun fs free h => ?_
  refine andThen_room h (mutateStep_room (Nat.le_trans (Nat.le_add_right _ _) h)) fun fs free h => ?_
  refine andThen_room h (mutateStep_room (Nat.le_trans (Nat.le_add_right _ _) h)) fun fs free h => ?_
  refine andThen_room h (mutateStep_room (Nat.le_trans (Nat.le_add_right _ _) h)) fun fs free h => ?_
  refine andThen_room h (mutateStep_room (Nat.le_trans (Nat.le_add_right _ _) h)) fun fs free h => ?_
  exact mutateStep_room h

/-- C88, room for everything: so does gc-delete. -/
theorem C88_room_delete (root : FPath) (vertex edge : Option (List Text)) (fs : FS) : ∃ n, ∀ free, n ≤ free →
    (gcDelete root vertex edge fs free).1 = (Store.gcDelete root vertex edge fs).1 ∧
    (gcDelete root vertex edge fs free).2.2 = (Store.gcDelete root vertex edge fs).2 := by
  refine ⟨optionBytes vertex (fun vs => .done (vs.map .RemoveVertex)) + optionBytes edge mkRemoveEdges, fun free h => ?_⟩
  suffices h : ∃ free', free ≤ free' + (optionBytes vertex (fun vs => .done (vs.map .RemoveVertex)) + optionBytes edge mkRemoveEdges) ∧
      gcDelete root vertex edge fs free =
      ((Store.gcDelete root vertex edge fs).1, free', (Store.gcDelete root vertex edge fs).2) by
    obtain ⟨free', _, h⟩ := h
    rw [h]
    exact ⟨rfl, rfl⟩
  refine andThen_room h (mutateStep_room (Nat.le_trans (Nat.le_add_right _ _) h)) fun fs free h => ?_
  exact mutateStep_room h

/-- C88, room for everything: so does gc-build. -/
theorem C88_room_build (nd : Char → Bool) (order : DirectedGraph → DirectedGraph) (root : FPath) (fs : FS) : ∃ n, ∀ free, n ≤ free →
    (gcBuild nd order root fs free).1 = (Store.gcBuild nd order root fs).1 ∧
    (gcBuild nd order root fs free).2.2 = (Store.gcBuild nd order root fs).2 := by
  unfold gcBuild Store.gcBuild
  rcases loadGraph nd root fs with _ | _ | (e | g)
  · exact ⟨0, fun _ _ => ⟨rfl, rfl⟩⟩
  · exact ⟨0, fun _ _ => ⟨rfl, rfl⟩⟩
  · exact ⟨0, fun _ _ => ⟨rfl, rfl⟩⟩
  · dsimp only
    refine ⟨(Format.Gcmd.save (order g)).length, fun free h => ?_⟩
    unfold saveGraphAsCommands Store.saveGraphAsCommands
    rcases createTruncate (commandPath root) fs with ⟨fs1, e | u⟩
    · exact ⟨rfl, rfl⟩
    · dsimp only
      obtain ⟨free', _, h2⟩ := writeFile_room (p := commandPath root) (fs := fs1) (free := free + sizeAt (commandPath root) fs)
        (pieces := ((order g).vertices.flatMap fun v => [Format.Gcmd.kwAddVertex, showId v, ['\n']]) ++
        ((order g).edges.flatMap fun e => [Format.Gcmd.kwAddEdge, showId e.src, [' '], showId e.dst, ['\n']]))
        (by rw [savePieces_flatten]; omega)
      rw [h2, savePieces_flatten]
      exact ⟨rfl, rfl⟩

/-- C88, little room: what an addition or removal stores. On an initialised graph, the command file gets the beginning of the new lines that
fits, and nothing else changes (except that the lock file is gone). An error is reported only if not everything was stored, and always if more
than 8192 bytes are missing. Missing: that the error is always reported, which is false (`C88_counterexample_add`). -/
theorem C88_stored_partial (root : FPath) (cs : List GraphCommand) (fs : FS) (free : Nat) (c : Text) (h : Ready root fs)
    (hc : Content root fs c) :
    ∃ fs' free' res, applyGraphCommands root cs fs free = (fs', free', res) ∧
      Content root fs' (c ++ (Format.Gcmd.commandsText cs).take free) ∧ free' = free - (Format.Gcmd.commandsText cs).length ∧
      Ready root fs' ∧ fs' (lockPath root) = none ∧ (∀ q, q ≠ lockPath root → q ≠ commandPath root → fs' q = fs q) ∧
      (res ≠ .ok () → free < (Format.Gcmd.commandsText cs).length) ∧
      (free + 8192 < (Format.Gcmd.commandsText cs).length → res = .error .noSpace) := by
  obtain ⟨fs1, h1, h2⟩ := lock_ok h.lockable
  have hcmd : fs1 (commandPath root) = some (.file c) := by
    rw [h2.content (root_prefix_command root)]; exact hc
  obtain ⟨w1, w2, w3, w4, w5⟩ := writeBuffered_spec (cs.flatMap fun c => [Format.Gcmd.commandIntoLine c, ['\n']]) c free
  rw [commandPieces_flatten] at w1 w2 w3 w4 w5
  rcases hw : writeBuffered (cs.flatMap fun c => [Format.Gcmd.commandIntoLine c, ['\n']]) c free with ⟨c', free', ok⟩
  rw [hw] at w1 w2 w3 w4 w5
  dsimp only at w1 w2 w3 w4 w5
  have hadd : addCommandsTo (commandPath root) cs fs1 free =
      (fs1.set (commandPath root) (some (.file c')), free', if ok then .ok () else .error .noSpace) := by
    unfold addCommandsTo openAppend
    rw [hcmd]
    dsimp only
    unfold writeFile
    rw [hcmd]
    dsimp only
    rw [hw]
  have hlockfile : FileAt (fs1.set (commandPath root) (some (.file c'))) (lockPath root) := by
    obtain ⟨l, hl⟩ := h2.1
    exact ⟨l, by rw [FS.set_other _ _ (lock_ne_command root).symm]; exact hl⟩
  refine ⟨(fs1.set (commandPath root) (some (.file c'))).set (lockPath root) none, free', if ok then .ok () else .error .noSpace, ?_, ?_, w2,
    ?_, FS.set_self _ _ _, ?_, ?_, ?_⟩
  · unfold applyGraphCommands unlock
    rw [h1]
    dsimp only
    rw [hadd]
    dsimp only
    rw [removeFile_ok hlockfile]
  · unfold Content
    rw [FS.set_other _ _ (lock_ne_command root), FS.set_self, w1]
  · refine ⟨fun q hq => ?_, ⟨c', by rw [FS.set_other _ _ (lock_ne_command root), FS.set_self]⟩, by rw [FS.set_self]; simp⟩
    rw [FS.set_other _ _ (lock_not_prefix root hq), FS.set_other _ _ (command_not_prefix root hq)]
    by_cases hp : q <+: root
    · exact h2.2.1 q hp
    · rw [h2.2.2 q (lock_not_prefix root hq) hp]
      exact h.1 q hq
  · intro q hq1 hq2
    rw [FS.set_other _ _ hq1, FS.set_other _ _ hq2]
    by_cases hp : q <+: root
    · rw [h2.2.1 q hp]
      exact (h.1 q (hp.trans (List.prefix_append _ _))).symm
    · exact h2.2.2 q hq1 hp
  · intro hres
    by_contra hlt
    apply hres
    rw [w3 (by omega)]
    rfl
  · intro hlt
    cases ok with
    | false => rfl
    | true =>
      have := w5 rfl
      have hb : bufCapacity = 8192 := rfl
      omega

/-- `C88_stored_partial` with room for five characters: one edge is stored, of the next command only `AddVe`. -/
example : ∃ fs' free' res, applyGraphCommands [['d']] [.AddVertex 7] (sampleFS "AddEdge 1 2\n".toList) 5 = (fs', free', res) ∧
    Content [['d']] fs' ("AddEdge 1 2\n".toList ++ "AddVe".toList) := by
  obtain ⟨fs', free', res, h1, h2, _⟩ := C88_stored_partial [['d']] [.AddVertex 7] _ 5 _ (sampleFS_ready "AddEdge 1 2\n".toList) (sampleFS_content _)
  exact ⟨fs', free', res, h1, h2⟩

/-- C88, little room: an addition of less than 8192 bytes reports success however little of it was stored. -/
theorem C88_small_never_reported (root : FPath) (cs : List GraphCommand) (fs : FS) (free : Nat) (h : Ready root fs)
    (hs : (Format.Gcmd.commandsText cs).length < 8192) : (applyGraphCommands root cs fs free).2.2 = .ok () := by
  obtain ⟨c, hc⟩ := h.2.1
  obtain ⟨fs1, h1, h2⟩ := lock_ok h.lockable
  have hcmd : fs1 (commandPath root) = some (.file c) := by
    rw [h2.content (root_prefix_command root)]; exact hc
  obtain ⟨_, _, _, w4, _⟩ := writeBuffered_spec (cs.flatMap fun c => [Format.Gcmd.commandIntoLine c, ['\n']]) c free
  rw [commandPieces_flatten] at w4
  have w4 := w4 hs
  rcases hw : writeBuffered (cs.flatMap fun c => [Format.Gcmd.commandIntoLine c, ['\n']]) c free with ⟨c', free', ok⟩
  rw [hw] at w4
  dsimp only at w4
  subst w4
  have hadd : addCommandsTo (commandPath root) cs fs1 free = (fs1.set (commandPath root) (some (.file c')), free', .ok ()) := by
    unfold addCommandsTo openAppend
    rw [hcmd]
    dsimp only
    unfold writeFile
    rw [hcmd]
    dsimp only
    rw [hw]
    rfl
  have hlockfile : FileAt (fs1.set (commandPath root) (some (.file c'))) (lockPath root) := by
    obtain ⟨l, hl⟩ := h2.1
    exact ⟨l, by rw [FS.set_other _ _ (lock_ne_command root).symm]; exact hl⟩
  unfold applyGraphCommands unlock
  rw [h1]
  dsimp only
  rw [hadd]
  dsimp only
  rw [removeFile_ok hlockfile]

/-- `C88_small_never_reported` on a full disk. -/
example : (applyGraphCommands [['d']] [.AddVertex 7, .AddEdge 1 2] (sampleFS []) 0).2.2 = .ok () :=
  C88_small_never_reported _ _ _ 0 (sampleFS_ready _) (by decide +kernel)

/-- C88, little room: what is loaded afterwards. The old commands and a beginning of the new ones; or in addition the next new command with
the digits of its last id cut off; or the file cannot be read any more. Missing: the claim excludes the second and third outcome. -/
theorem C88_loaded_partial (nd : Char → Bool) (root : FPath) (cs : List GraphCommand) (fs : FS) (free : Nat) (c : Text) (base : List GraphCommand)
    (h : Ready root fs) (hc : Content root fs c) (ht : NewlineTerminated c)
    (hb : Format.Gcmd.readAsCommands nd c = .done (.ok base)) :
    ∃ k, k ≤ cs.length ∧
      (loadGraph nd root (applyGraphCommands root cs fs free).1 = .done (.ok (GraphCommand.applyCommands (base ++ cs.take k) .new)) ∨
      (∃ cmd cmd', cs[k]? = some cmd ∧ Truncated cmd cmd' ∧ loadGraph nd root (applyGraphCommands root cs fs free).1 =
        .done (.ok (GraphCommand.applyCommands (base ++ cs.take k ++ [cmd']) .new))) ∨
      ∃ cmd l, cs[k]? = some cmd ∧ l <+: Format.Gcmd.commandIntoLine cmd ∧ loadGraph nd root (applyGraphCommands root cs fs free).1 =
        .done (.error (.parse (.atLine ((lines c).length + k + 1) l)))) := by
  obtain ⟨fs', free', res, h1, h2, _⟩ := C88_stored_partial root cs fs free c h hc
  rw [h1]
  obtain ⟨k, hk, h3⟩ := C15_crash_outcomes_partial nd c _ base cs ht hb (List.take_prefix free (Format.Gcmd.commandsText cs))
  have hload : ∀ r, Format.Gcmd.readAsCommands nd (c ++ (Format.Gcmd.commandsText cs).take free) = .done r →
      loadGraph nd root fs' = .done (match r with
        | .ok cs => .ok (GraphCommand.applyCommands cs .new)
        | .error e => .error (.parse e)) := by
    intro r hr
    unfold Content at h2
    unfold loadGraph
    rw [h2]
    dsimp only
    unfold Format.Gcmd.read Format.read
    rw [show Format.readAsCommands (Format.Gcmd.parseLine nd) _ = .done r from hr]
    cases r <;> rfl
  refine ⟨k, hk, ?_⟩
  rcases h3 with h3 | ⟨cmd, cmd', h4, h5, h3⟩ | ⟨cmd, l, h4, h5, h3⟩
  · exact .inl (hload _ h3)
  · exact .inr (.inl ⟨cmd, cmd', h4, h5, hload _ h3⟩)
  · exact .inr (.inr ⟨cmd, l, h4, h5, hload _ h3⟩)

/-- `C88_loaded_partial` for two commands appended to the file of one edge, with room for fifteen characters. -/
example (nd : Char → Bool) := C88_loaded_partial nd [['d']] [.AddEdge 7 12, .AddVertex 3] _ 15 _ [.AddEdge 1 2]
  (sampleFS_ready "AddEdge 1 2\n".toList) (sampleFS_content _) (by right; decide) rfl

/-- C88, little room: what gc-build leaves. The command file holds the beginning of the rewritten graph that fits; gc-build says that data may be
lost only if that is not everything, and always if more than 8192 bytes are missing. Missing: that it always says so, which is false
(`C88_counterexample_build`). -/
theorem C88_build_partial (nd : Char → Bool) (order : DirectedGraph → DirectedGraph) (root : FPath) (fs : FS) (free : Nat) (c : Text)
    (g : DirectedGraph) (hc : Content root fs c) (hg : loadGraph nd root fs = .done (.ok g)) :
    ∃ fs' free' exit, gcBuild nd order root fs free = (fs', free', exit) ∧
      Content root fs' ((Format.Gcmd.save (order g)).take (free + c.length)) ∧ (∀ q, q ≠ commandPath root → fs' q = fs q) ∧
      (exit = .panic → free + c.length < (Format.Gcmd.save (order g)).length) ∧
      (free + c.length + 8192 < (Format.Gcmd.save (order g)).length → exit = .panic) ∧
      ((Format.Gcmd.save (order g)).length < 8192 → exit = .success) := by
  unfold Content at hc
  have hsize : sizeAt (commandPath root) fs = c.length := by unfold sizeAt; rw [hc]
  obtain ⟨w1, w2, w3, w4, w5⟩ := writeBuffered_spec (((order g).vertices.flatMap fun v => [Format.Gcmd.kwAddVertex, showId v, ['\n']]) ++
        ((order g).edges.flatMap fun e => [Format.Gcmd.kwAddEdge, showId e.src, [' '], showId e.dst, ['\n']])) [] (free + c.length)
  rw [savePieces_flatten] at w1 w2 w3 w4 w5
  rcases hw : writeBuffered (((order g).vertices.flatMap fun v => [Format.Gcmd.kwAddVertex, showId v, ['\n']]) ++
        ((order g).edges.flatMap fun e => [Format.Gcmd.kwAddEdge, showId e.src, [' '], showId e.dst, ['\n']])) [] (free + c.length)
    with ⟨c', free', ok⟩
  rw [hw] at w1 w2 w3 w4 w5
  dsimp only at w1 w2 w3 w4 w5
  have hsave : saveGraphAsCommands root (order g) fs free = ((fs.set (commandPath root) (some (.file []))).set (commandPath root)
      (some (.file c')), free', if ok then .ok () else .error .noSpace) := by
    unfold saveGraphAsCommands createTruncate
    rw [hc]
    dsimp only
    unfold writeFile
    rw [FS.set_self, hsize]
    dsimp only
    rw [hw]
  refine ⟨(fs.set (commandPath root) (some (.file []))).set (commandPath root) (some (.file c')), free', if ok then .success else .panic, ?_, ?_,
    ?_, ?_, ?_, ?_⟩
  · unfold gcBuild
    rw [hg]
    dsimp only
    rw [hsave]
    cases ok <;> rfl
  · unfold Content
    rw [FS.set_self, w1, List.nil_append]
  · intro q hq
    rw [FS.set_other _ _ hq, FS.set_other _ _ hq]
  · intro he
    by_contra hlt
    rw [w3 (by omega)] at he
    cases he
  · intro hlt
    cases ok with
    | false => rfl
    | true =>
      have := w5 rfl
      have hb : bufCapacity = 8192 := rfl
      omega
  · intro hlt
    rw [w4 hlt]
    rfl

/-- `C88_build_partial` for the file of one edge on a full disk: the new file needs more room than the old one had, and the end is missing. -/
example (nd : Char → Bool) : ∃ fs' free' exit, gcBuild nd id [['d']] (sampleFS (Format.Gcmd.commandsText [.AddEdge 1 2])) 0 = (fs', free', exit) ∧
    Content [['d']] fs' "AddVertex 1\n".toList ∧ exit = .success := by
  obtain ⟨fs', free', exit, h1, h2, _, _, _, h3⟩ := C88_build_partial nd id [['d']] _ 0 _ _
    (sampleFS_content (Format.Gcmd.commandsText [.AddEdge 1 2])) (load_sample nd [.AddEdge 1 2])
  refine ⟨fs', free', exit, h1, ?_, h3 (by decide +kernel)⟩
  have : (Format.Gcmd.save (id (GraphCommand.applyCommands [.AddEdge 1 2] .new))).take
      (0 + (Format.Gcmd.commandsText [.AddEdge 1 2]).length) = "AddVertex 1\n".toList := by decide +kernel
  rwa [this] at h2

/-- C88 is false: with 11 bytes left, `gc-add --edge 1 23` ends with success, and the graph then has the edge 1 → 2, which nobody asked for, and
not the edge 1 → 23. -/
theorem C88_counterexample_add (nd : Char → Bool) :
    ∃ fs' g, gcAdd [['d']] { edge := some [['1'], ['2', '3']] } (sampleFS []) 11 = (fs', 0, .success) ∧
      loadGraph nd [['d']] fs' = .done (.ok g) ∧ g.containsEdge ⟨1, 23⟩ = false ∧ g.containsEdge ⟨1, 2⟩ = true := by
  have hr : Ready [['d']] (sampleFS []) := sampleFS_ready []
  obtain ⟨fs', free', res, h1, h2, h3, _⟩ := C88_stored_partial [['d']] [.AddEdge 1 23] (sampleFS []) 11 [] hr rfl
  refine ⟨fs', GraphCommand.applyCommands [.AddEdge 1 2] .new, ?_, ?_, by decide, by decide⟩
  · have e : (Run.unwrap (Args.parseVertexIdList [['1'], ['2', '3']])).bind (mkEdges false) = .done [.AddEdge 1 23] := by decide
    have hf : free' = 0 := by rw [h3]; decide
    unfold gcAdd mutateStep andThen
    dsimp only
    rw [e]
    dsimp only
    rw [h1, hf]
  · unfold Content at h2
    unfold loadGraph
    rw [h2]
    rfl

/-- C88 is false: gc-build on a full disk ends with success although it lost the edge of the graph. -/
theorem C88_counterexample_build (nd : Char → Bool) :
    ∃ fs' free' g g', loadGraph nd [['d']] (sampleFS "AddEdge 1 2\n".toList) = .done (.ok g) ∧ g.containsEdge ⟨1, 2⟩ = true ∧
      gcBuild nd id [['d']] (sampleFS "AddEdge 1 2\n".toList) 0 = (fs', free', .success) ∧
      loadGraph nd [['d']] fs' = .done (.ok g') ∧ g'.containsEdge ⟨1, 2⟩ = false := by
  have hl : loadGraph nd [['d']] (sampleFS "AddEdge 1 2\n".toList) = .done (.ok (GraphCommand.applyCommands [.AddEdge 1 2] .new)) := rfl
  obtain ⟨fs', free', exit, h1, h2, _, _, _, h3⟩ := C88_build_partial nd id [['d']] (sampleFS "AddEdge 1 2\n".toList) 0
    "AddEdge 1 2\n".toList _ rfl hl
  have h3 := h3 (by decide)
  subst h3
  refine ⟨fs', free', _, GraphCommand.applyCommands [.AddVertex 1] .new, hl, by decide, h1, ?_, by decide⟩
  unfold Content at h2
  unfold loadGraph
  rw [h2]
  rfl

/-- The hypotheses can be met, with little and with enough room. -/
example (nd : Char → Bool) : Ready [['d']] (sampleFS "AddEdge 1 2\n".toList) ∧ NewlineTerminated "AddEdge 1 2\n".toList ∧
    Format.Gcmd.readAsCommands nd "AddEdge 1 2\n".toList = .done (.ok [.AddEdge 1 2]) ∧
    (Format.Gcmd.commandsText [.AddEdge 7 12, .AddVertex 3]).length = 25 :=
  ⟨sampleFS_ready _, .inr (by decide), rfl, by decide⟩

end Disk
end GC
