/-
Property C113: reading call by call, with interrupted and failing calls.
-/
import Verif.Proofs.Reads
import Verif.Props.Bytes
namespace GC
open Reads Text Format Store

theorem reads_whole {parse : Text → Run (Except Text GraphCommand)} (hp : ∀ l, parse l ≠ .running) {file : List Event}
    (h : ¬ HasFailure file) : EndsLike (Reads.readAsCommands parse file) (Bytes.readAsCommands parse (delivered file)) := by
  have := (loop_whole hp _ 0 ⟨[], file⟩ [] rfl h).endsLike
  unfold Bytes.readAsCommands Reads.readAsCommands
  rwa [show pending ⟨[], file⟩ = delivered file from rfl] at this

theorem reads_failed {parse : Text → Run (Except Text GraphCommand)} (hp : ∀ l, parse l ≠ .running) {file : List Event}
    (h : HasFailure file) :
    EndsLike (Reads.readAsCommands parse file) (thenFail (Bytes.readLoop parse 0 (complete [] (delivered file)) [])) :=
  (loop_failed hp _ 0 ⟨[], file⟩ [] rfl h).endsLike

/-- An error in the first lines is the answer, whatever comes after them. -/
theorem readLoop_error_append (parse : Text → Run (Except Text GraphCommand)) (ls tail : List (List UInt8)) (i : Nat)
    (res : List GraphCommand) (e : ReadError) (h : Bytes.readLoop parse i ls res = .done (.error e)) :
    Bytes.readLoop parse i (ls ++ tail) res = .done (.error e) := by
  induction ls generalizing i res with
  | nil => cases h
  | cons raw ls ih =>
    rw [List.cons_append, Bytes.readLoop]
    rw [Bytes.readLoop] at h
    cases hl : Bytes.lineOf raw with
    | none => rw [hl] at h; cases h
    | some line =>
      rw [hl] at h
      simp only [Run.unwrap, Run.bind_done] at h ⊢
      split at h
      · rename_i hc
        rw [if_pos hc]
        cases hpl : parse line with
        | running => rw [hpl] at h; cases h
        | panicked => rw [hpl] at h; cases h
        | done x =>
          rw [hpl] at h
          cases x with
          | error m => exact h
          | ok c => exact ih _ _ h
      · rename_i hc
        rw [if_neg hc]
        exact ih _ _ h

/-- C113: as long as no call fails, reading a file depends only on its bytes, in both formats: not on the sizes of the pieces in which the
operating system hands them out, and not on interrupted calls. (`Bytes.readAsCommands` is what C99 is about.) -/
theorem C113_pieces (nd : Char → Bool) (file : List Event) (h : ¬ HasFailure file) :
    EndsLike (Reads.readAsCommands (Gcmd.parseLine nd) file) (Bytes.readAsCommands (Gcmd.parseLine nd) (delivered file)) ∧
    EndsLike (Reads.readAsCommands (Tgf.parseLine nd) file) (Bytes.readAsCommands (Tgf.parseLine nd) (delivered file)) :=
  ⟨reads_whole (gcmd_no_running nd) h, reads_whole (tgf_no_running nd) h⟩

/-- C113: if a call fails, the file is not read: the program panics, or reports the error of a line that it had read completely, which it
reports for every file that begins with the bytes handed out so far. -/
theorem C113_failure (nd : Char → Bool) (file : List Event) (h : HasFailure file) (parse : Text → Run (Except Text GraphCommand))
    (hp : parse = Gcmd.parseLine nd ∨ parse = Tgf.parseLine nd) :
    Panics (Reads.readAsCommands parse file) ∨
    ∃ e, Returns (Reads.readAsCommands parse file) (.error e) ∧
      ∀ more, Bytes.readAsCommands parse (delivered file ++ more) = .done (.error e) := by
  have hr : ∀ l, parse l ≠ .running := by
    rcases hp with rfl | rfl
    · exact gcmd_no_running nd
    · exact tgf_no_running nd
  have := reads_failed hr h
  cases hc : Bytes.readLoop parse 0 (complete [] (delivered file)) [] with
  | running => rw [hc] at this; exact this.elim
  | panicked => rw [hc] at this; exact .inl this
  | done x =>
    rw [hc] at this
    cases x with
    | ok cs => exact .inl this
    | error e =>
      refine .inr ⟨e, this, fun more => ?_⟩
      unfold Bytes.readAsCommands
      obtain ⟨tail, ht⟩ := rawLines_complete [] (delivered file) more
      rw [ht]
      exact readLoop_error_append _ _ _ _ _ _ hc

/-- C113: the command file is loaded as a graph only if it could be opened and was read to its end, and then it is the graph that its text
describes. Queries and gc-build, which begin by loading the graph, therefore never work on a part of it. -/
theorem C113_load (nd : Char → Bool) (opened : Except IoError (List Event)) (g : DirectedGraph)
    (h : Returns (loadGraphFromPath nd opened) (.ok g)) :
    ∃ file, opened = .ok file ∧ ¬ HasFailure file ∧
      ∀ t root fs, delivered file = utf8 t → fs (commandPath root) = some (.file t) → loadGraph nd root fs = .done (.ok g) := by
  cases opened with
  | error e => exact absurd (h.unique (Returns.ret _)) (by simp)
  | ok file =>
    have key : ∀ q, EndsLike (Reads.readAsCommands (Gcmd.parseLine nd) file) q →
        ∃ cs, q = .done (.ok cs) ∧ g = GraphCommand.applyCommands cs .new := by
      intro q hq
      cases q with
      | running => exact hq.elim
      | panicked =>
        exact absurd (Panics.bind_left (Panics.bind_left hq)) h.not_panics
      | done x =>
        have hq : Returns (Reads.readAsCommands (Gcmd.parseLine nd) file) x := hq
        cases x with
        | ok cs =>
          have : Returns (loadGraphFromPath nd (.ok file)) (.ok (GraphCommand.applyCommands cs .new)) :=
            Returns.bind (Returns.bind hq (Returns.ret _)) (Returns.ret _)
          exact ⟨cs, rfl, Except.ok.inj (h.unique this)⟩
        | error e =>
          have : Returns (loadGraphFromPath nd (.ok file)) (.error (.parse e)) :=
            Returns.bind (Returns.bind hq (Returns.ret _)) (Returns.ret _)
          exact absurd (h.unique this) (by simp)
    have hnf : ¬ HasFailure file := by
      intro hf
      obtain ⟨cs, h1, _⟩ := key _ (reads_failed (gcmd_no_running nd) hf)
      unfold thenFail at h1
      split at h1 <;> cases h1
    refine ⟨file, rfl, hnf, ?_⟩
    intro t root fs ht hfs
    obtain ⟨cs, h1, h2⟩ := key _ (reads_whole (gcmd_no_running nd) hnf)
    rw [ht, (Bytes.C99_text_files nd t).1] at h1
    unfold loadGraph
    rw [hfs]
    simp only [Gcmd.read, Format.read]
    unfold Gcmd.readAsCommands at h1
    rw [h1, h2]
    rfl

/-- C113: conversely, a file that is read without failure loads whenever its text describes a graph. -/
theorem C113_load_succeeds (nd : Char → Bool) (file : List Event) (hf : ¬ HasFailure file) (t : Text) (ht : delivered file = utf8 t)
    (root : FPath) (fs : FS) (hfs : fs (commandPath root) = some (.file t)) :
    EndsLike (loadGraphFromPath nd (.ok file)) (loadGraph nd root fs) := by
  have h1 := reads_whole (gcmd_no_running nd) hf
  rw [ht, (Bytes.C99_text_files nd t).1] at h1
  unfold loadGraph
  rw [hfs]
  simp only [Gcmd.read, Format.read]
  unfold Gcmd.readAsCommands at h1
  cases hr : Format.readAsCommands (Gcmd.parseLine nd) t with
  | running => rw [hr] at h1; exact h1.elim
  | panicked => rw [hr] at h1; exact Panics.bind_left (Panics.bind_left h1)
  | done x =>
    rw [hr] at h1
    cases x with
    | ok cs => exact Returns.bind (Returns.bind h1 (Returns.ret _)) (Returns.ret _)
    | error e => exact Returns.bind (Returns.bind h1 (Returns.ret _)) (Returns.ret _)

theorem firstLine_newline {a rest : List UInt8} (h : (10 : UInt8) ∉ a) : Bytes.firstLine (a ++ 10 :: rest) = a ++ [10] := by
  induction a with
  | nil => simp [Bytes.firstLine]
  | cons b a ih =>
    rw [List.cons_append, Bytes.firstLine, if_neg (by rintro rfl; exact h (by simp)), ih (fun hm => h (by simp [hm]))]
    rfl

theorem firstLine_all {a : List UInt8} (h : (10 : UInt8) ∉ a) : Bytes.firstLine a = a := by
  induction a with
  | nil => rfl
  | cons b a ih =>
    rw [Bytes.firstLine, if_neg (by rintro rfl; exact h (by simp)), ih (fun hm => h (by simp [hm]))]

/-- C113: gc-clean (and gc-random, which asks in the same way) takes the answer of the user from the first line, however it arrives. If standard
input fails before the line is complete, nothing is removed. -/
theorem C113_answer (root : FPath) (stdin : List Event) (fs : FS) :
    (¬ HasFailure stdin ∨ 10 ∈ delivered stdin → Reads.gcClean root false stdin fs = Bytes.gcClean root false (delivered stdin) fs ∧
      Reads.confirmationYesNo stdin = Bytes.confirmationYesNo (delivered stdin)) ∧
    (HasFailure stdin → 10 ∉ delivered stdin → Reads.gcClean root false stdin fs = (fs, .panic) ∧
      Reads.confirmationYesNo stdin = .panicked) := by
  have hspec := readUntil_spec [] [] stdin
  rw [List.nil_append] at hspec
  have hfirst : ¬ HasFailure stdin ∨ 10 ∈ delivered stdin → Reads.confirmationYesNo stdin = Bytes.confirmationYesNo (delivered stdin) := by
    intro hc
    unfold Reads.confirmationYesNo Bytes.confirmationYesNo
    rcases hspec with ⟨a, rest, r, h1, h2, h3, _⟩ | ⟨h1, ⟨h2, _⟩ | ⟨_, h2⟩⟩
    · rw [h3, h2, firstLine_newline h1]
      rfl
    · exact absurd hc (by simp [h1, h2])
    · rw [h2, firstLine_all h1]
      rfl
  have hsecond : HasFailure stdin → 10 ∉ delivered stdin → Reads.confirmationYesNo stdin = .panicked := by
    intro hf hn
    unfold Reads.confirmationYesNo
    rcases hspec with ⟨a, rest, r, h1, h2, h3, _⟩ | ⟨h1, ⟨_, h2⟩ | ⟨h2, _⟩⟩
    · rw [h2] at hn
      simp at hn
    · rw [h2]; rfl
    · exact absurd hf h2
  refine ⟨fun hc => ⟨?_, hfirst hc⟩, fun hf hn => ⟨?_, hsecond hf hn⟩⟩
  · unfold Reads.gcClean Bytes.gcClean
    rw [hfirst hc]
    rfl
  · unfold Reads.gcClean
    rw [hsecond hf hn]
    rfl

/-- `C113_failure` and `C113_load_succeeds` for a file whose read fails at once, and for one read in one piece. -/
example (nd : Char → Bool) := C113_failure nd [.data 65 [], .failed] (by simp [HasFailure]) _ (.inl rfl)
example (nd : Char → Bool) := C113_load_succeeds nd [.data 65 [], .interrupted, .data 10 []] (by simp [HasFailure]) ['A', '\n'] (by decide)
  [['d']] (sampleFS ['A', '\n']) rfl

/-- The bytes of a text, handed out one by one. -/
def byByte (t : String) : List Event := (utf8 t.toList).map fun b => .data b []

/-- Example: two commands arrive in pieces that are no lines, with an interruption; the same with a failure; a failure after a bad line. -/
example :
    (¬ HasFailure (byByte "AddVertex 1\nAdd" ++ .interrupted :: byByte "Edge 1 2") ∧
      Reads.readAsCommands (Gcmd.parseLine (fun _ => false)) (byByte "AddVertex 1\nAdd" ++ .interrupted :: byByte "Edge 1 2") 5 =
        .done (.ok [.AddVertex 1, .AddEdge 1 2])) ∧
    (HasFailure (byByte "AddVertex 1\nAdd" ++ .failed :: byByte "Edge 1 2") ∧
      Reads.readAsCommands (Gcmd.parseLine (fun _ => false)) (byByte "AddVertex 1\nAdd" ++ .failed :: byByte "Edge 1 2") 5 = .panicked) ∧
    Reads.confirmationYesNo (byByte "ye" ++ .interrupted :: byByte "s\nno") = .done true ∧
    Reads.confirmationYesNo (byByte "ye" ++ [.failed]) = .panicked := by
  refine ⟨⟨by simp [HasFailure, byByte], by decide +kernel⟩, ⟨by simp [HasFailure], by decide +kernel⟩, by decide +kernel, by decide +kernel⟩

example : (match Reads.readAsCommands (Gcmd.parseLine (fun _ => false)) (byByte "AddVertex 1\nx\nAdd" ++ [.failed]) 5 with
    | .done (.error (.atLine 2 _)) => true
    | _ => false) = true := by decide +kernel

end GC
