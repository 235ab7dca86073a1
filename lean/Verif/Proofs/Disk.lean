/- Lemmas about writing to a disk that can be full. -/
import Verif.Model.Disk
import Verif.Props.Store

namespace GC
namespace Disk
open Store Text Concurrent

/-- What the file and the free room are once the writer is dropped. -/
theorem dropped (ts : List Text) : ∀ w : Writer,
    (Writer.writePieces ts w).1.flushBuf.1.content = w.content ++ (w.buffer ++ ts.flatten).take w.free ∧
    (Writer.writePieces ts w).1.flushBuf.1.free = w.free - (w.buffer ++ ts.flatten).length := by
  induction ts with
  | nil =>
    intro w
    simp [Writer.writePieces, Writer.flushBuf]
  | cons t ts ih =>
    intro w
    have key : ∀ w' : Writer, w'.content = w.content ++ w.buffer.take w.free → w'.free = w.free - w.buffer.length → w'.buffer = [] →
        w.buffer.length ≤ w.free →
        (w'.content ++ (w'.buffer ++ (t :: ts).flatten).take w'.free = w.content ++ (w.buffer ++ (t :: ts).flatten).take w.free ∧
        w'.free - (w'.buffer ++ (t :: ts).flatten).length = w.free - (w.buffer ++ (t :: ts).flatten).length) := by
      intro w' h1 h2 h3 h4
      rw [h1, h2, h3]
      constructor
      · rw [List.nil_append, List.take_append (l₁ := w.buffer), List.append_assoc]
      · simp only [List.nil_append, List.length_append]
        omega
    -- a piece that follows on an empty buffer or fits
    have put : ∀ w' : Writer, (bufCapacity ≤ t.length → w'.buffer = []) →
        ((match (if t.length ≥ bufCapacity then w'.writeOut t else ({ w' with buffer := w'.buffer ++ t }, true)) with
          | (w, false) => (w, false)
          | (w, true) => Writer.writePieces ts w).1.flushBuf.1.content = w'.content ++ (w'.buffer ++ (t :: ts).flatten).take w'.free ∧
        (match (if t.length ≥ bufCapacity then w'.writeOut t else ({ w' with buffer := w'.buffer ++ t }, true)) with
          | (w, false) => (w, false)
          | (w, true) => Writer.writePieces ts w).1.flushBuf.1.free = w'.free - (w'.buffer ++ (t :: ts).flatten).length) := by
      intro w' hw'
      by_cases ht : t.length ≥ bufCapacity
      · rw [if_pos ht]
        have hb := hw' ht
        unfold Writer.writeOut
        by_cases hf : t.length ≤ w'.free
        · simp only [hf, decide_true]
          obtain ⟨h1, h2⟩ := ih { w' with content := w'.content ++ t.take w'.free, free := w'.free - t.length }
          rw [h1, h2]
          simp only [hb, List.nil_append, List.flatten_cons, List.take_append, List.append_assoc, List.length_append]
          exact ⟨trivial, by omega⟩
        · simp only [hf, decide_false, Writer.flushBuf, hb, List.take_nil, List.append_nil, List.nil_append, List.flatten_cons,
            List.length_nil, List.length_append]
          refine ⟨?_, by omega⟩
          rw [List.take_append_of_le_length (by omega)]
      · rw [if_neg ht]
        obtain ⟨h1, h2⟩ := ih { w' with buffer := w'.buffer ++ t }
        simp only [List.flatten_cons] at h1 h2 ⊢
        rw [h1, h2]
        simp [List.append_assoc]
    unfold Writer.writePieces Writer.writeAll
    by_cases hc : w.buffer.length + t.length > bufCapacity
    · simp only [hc, if_true]
      unfold Writer.flushBuf
      by_cases hf : w.buffer.length ≤ w.free
      · simp only [hf, decide_true]
        have := put ⟨w.content ++ w.buffer.take w.free, w.free - w.buffer.length, w.buffer.drop w.free⟩ (fun _ => List.drop_eq_nil_of_le hf)
        obtain ⟨k1, k2⟩ := key ⟨w.content ++ w.buffer.take w.free, w.free - w.buffer.length, w.buffer.drop w.free⟩ rfl rfl
          (List.drop_eq_nil_of_le hf) hf
        exact ⟨this.1.trans k1, this.2.trans k2⟩
      · simp only [hf, decide_false]
        have h0 : w.free - w.buffer.length = 0 := by omega
        simp only [h0, List.take_zero, List.append_nil, List.length_append]
        refine ⟨?_, by omega⟩
        rw [List.take_append_of_le_length (by omega)]
    · simp only [hc, if_false]
      refine put w fun ht => ?_
      have : w.buffer.length = 0 := by omega
      exact List.length_eq_zero_iff.1 this

/-- When the function reports success: only the last buffer can be missing. -/
theorem ok_room (ts : List Text) : ∀ w : Writer, w.buffer.length ≤ bufCapacity →
    ((w.buffer ++ ts.flatten).length ≤ w.free → (Writer.writePieces ts w).2 = true) ∧
    ((w.buffer ++ ts.flatten).length < bufCapacity → (Writer.writePieces ts w).2 = true) ∧
    ((Writer.writePieces ts w).2 = true → (w.buffer ++ ts.flatten).length ≤ w.free + bufCapacity) := by
  induction ts with
  | nil =>
    intro w hw
    simp only [Writer.writePieces, List.flatten_nil, List.append_nil, true_implies, implies_true, true_and]
    omega
  | cons t ts ih =>
    intro w hw
    have hcap : bufCapacity = 8192 := rfl
    simp only [List.flatten_cons, List.length_append]
    unfold Writer.writePieces Writer.writeAll
    -- state after the flush
    have put : ∀ w' : Writer, w'.buffer.length + t.length ≤ bufCapacity ∨ w'.buffer = [] →
        ((w'.buffer.length + (t.length + ts.flatten.length) ≤ w'.free →
          (match (if t.length ≥ bufCapacity then w'.writeOut t else ({ w' with buffer := w'.buffer ++ t }, true)) with
            | (w, false) => (w, false)
            | (w, true) => Writer.writePieces ts w).2 = true) ∧
        (w'.buffer.length + (t.length + ts.flatten.length) < bufCapacity →
          (match (if t.length ≥ bufCapacity then w'.writeOut t else ({ w' with buffer := w'.buffer ++ t }, true)) with
            | (w, false) => (w, false)
            | (w, true) => Writer.writePieces ts w).2 = true) ∧
        ((match (if t.length ≥ bufCapacity then w'.writeOut t else ({ w' with buffer := w'.buffer ++ t }, true)) with
            | (w, false) => (w, false)
            | (w, true) => Writer.writePieces ts w).2 = true →
          w'.buffer.length + (t.length + ts.flatten.length) ≤ w'.free + bufCapacity)) := by
      intro w' hw'
      by_cases ht : t.length ≥ bufCapacity
      · rw [if_pos ht]
        have hb : w'.buffer.length = 0 := by
          rcases hw' with h | h
          · omega
          · rw [h]; rfl
        unfold Writer.writeOut
        by_cases hf : t.length ≤ w'.free
        · simp only [hf, decide_true]
          obtain ⟨h1, h2, h3⟩ := ih { w' with content := w'.content ++ t.take w'.free, free := w'.free - t.length } (by simp only; omega)
          simp only [List.length_append] at h1 h2 h3
          refine ⟨fun h => h1 (by omega), fun h => by omega, fun h => ?_⟩
          have := h3 h
          omega
        · simp only [hf, decide_false]
          refine ⟨fun h => by omega, fun h => by omega, fun h => by simp at h⟩
      · rw [if_neg ht]
        obtain ⟨h1, h2, h3⟩ := ih { w' with buffer := w'.buffer ++ t } (by
          simp only [List.length_append]
          rcases hw' with h | h
          · omega
          · rw [h]; simp only [List.length_nil]; omega)
        simp only [List.length_append] at h1 h2 h3
        refine ⟨fun h => h1 (by omega), fun h => h2 (by omega), fun h => ?_⟩
        have := h3 h
        omega
    by_cases hc : w.buffer.length + t.length > bufCapacity
    · simp only [hc, if_true]
      unfold Writer.flushBuf
      by_cases hf : w.buffer.length ≤ w.free
      · simp only [hf, decide_true]
        have hnil : w.buffer.drop w.free = [] := List.drop_eq_nil_of_le hf
        obtain ⟨h1, h2, h3⟩ := put ⟨w.content ++ w.buffer.take w.free, w.free - w.buffer.length, w.buffer.drop w.free⟩ (.inr hnil)
        simp only [hnil, List.length_nil] at h1 h2 h3 ⊢
        refine ⟨fun h => h1 (by omega), fun h => h2 (by omega), fun h => ?_⟩
        have := h3 h
        omega
      · simp only [hf, decide_false]
        refine ⟨fun h => by omega, fun h => by omega, fun h => by simp at h⟩
    · simp only [hc, if_false]
      exact put w (.inl (by omega))

theorem writeBuffered_spec (pieces : List Text) (content : Text) (free : Nat) :
    (writeBuffered pieces content free).1 = content ++ pieces.flatten.take free ∧
    (writeBuffered pieces content free).2.1 = free - pieces.flatten.length ∧
    (pieces.flatten.length ≤ free → (writeBuffered pieces content free).2.2 = true) ∧
    (pieces.flatten.length < bufCapacity → (writeBuffered pieces content free).2.2 = true) ∧
    ((writeBuffered pieces content free).2.2 = true → pieces.flatten.length ≤ free + bufCapacity) := by
  have h1 := dropped pieces ⟨content, free, []⟩
  have h2 := ok_room pieces ⟨content, free, []⟩ (by simp)
  simp only [List.nil_append] at h1 h2
  exact ⟨h1.1, h1.2, h2.1, h2.2.1, h2.2.2⟩

theorem commandPieces_flatten (cs : List GraphCommand) :
    (cs.flatMap fun c => [Format.Gcmd.commandIntoLine c, ['\n']]).flatten = Format.Gcmd.commandsText cs := by
  induction cs with
  | nil => rfl
  | cons c cs ih => simp only [List.flatMap_cons, List.flatten_append, ih, Format.Gcmd.commandsText]; simp

theorem savePieces_flatten (g : DirectedGraph) :
    ((g.vertices.flatMap fun v => [Format.Gcmd.kwAddVertex, showId v, ['\n']]) ++
      (g.edges.flatMap fun e => [Format.Gcmd.kwAddEdge, showId e.src, [' '], showId e.dst, ['\n']])).flatten = Format.Gcmd.save g := by
  unfold Format.Gcmd.save
  rw [List.flatten_append]
  congr 1
  · induction g.vertices with
    | nil => rfl
    | cons c cs ih => simp only [List.flatMap_cons, List.flatten_append, ih]; simp
  · induction g.edges with
    | nil => rfl
    | cons c cs ih => simp only [List.flatMap_cons, List.flatten_append, ih]; simp

/-- With enough room a write has the effect of `appendText`. -/
theorem writeFile_room {p : FPath} {pieces : List Text} {fs : FS} {free : Nat} (h : pieces.flatten.length ≤ free) :
    ∃ free', free ≤ free' + pieces.flatten.length ∧ writeFile p pieces fs free = (appendText p pieces.flatten fs, free', .ok ()) := by
  unfold writeFile appendText
  split
  · rename_i c hc
    obtain ⟨h1, h2, h3, _⟩ := writeBuffered_spec pieces c free
    have h3 := h3 h
    rcases hw : writeBuffered pieces c free with ⟨c', free', ok⟩
    rw [hw] at h1 h2 h3
    dsimp only at h1 h2 h3 ⊢
    refine ⟨free', by omega, ?_⟩
    rw [h3, h1, List.take_of_length_le h, hc]
    rfl
  · rename_i hc
    refine ⟨free, by omega, ?_⟩
    split
    · rename_i c hc'
      exact absurd hc' (hc c)
    · rfl

theorem addCommandsTo_room {p : FPath} {cs : List GraphCommand} {fs : FS} {free : Nat} (h : (Format.Gcmd.commandsText cs).length ≤ free) :
    ∃ free', free ≤ free' + (Format.Gcmd.commandsText cs).length ∧
      addCommandsTo p cs fs free = ((Store.addCommandsTo p cs fs).1, free', (Store.addCommandsTo p cs fs).2) := by
  unfold addCommandsTo Store.addCommandsTo
  rcases openAppend p fs with ⟨fs1, e | u⟩
  · exact ⟨free, by omega, rfl⟩
  · rw [← commandPieces_flatten] at h
    obtain ⟨free', h1, h2⟩ := writeFile_room (p := p) (fs := fs1) h
    rw [commandPieces_flatten] at h1 h2
    exact ⟨free', h1, h2⟩

theorem applyGraphCommands_room {root : FPath} {cs : List GraphCommand} {fs : FS} {free : Nat}
    (h : (Format.Gcmd.commandsText cs).length ≤ free) :
    ∃ free', free ≤ free' + (Format.Gcmd.commandsText cs).length ∧
      applyGraphCommands root cs fs free = ((Store.applyGraphCommands root cs fs).1, free', (Store.applyGraphCommands root cs fs).2) := by
  unfold applyGraphCommands Store.applyGraphCommands withLock
  rcases lock root fs with ⟨fs1, e | u⟩
  · exact ⟨free, by omega, rfl⟩
  · obtain ⟨free', h1, h2⟩ := addCommandsTo_room (p := commandPath root) (fs := fs1) h
    refine ⟨free', h1, ?_⟩
    dsimp only
    rw [h2]
    dsimp only
    rcases unlock root (Store.addCommandsTo (commandPath root) cs fs1).1 with ⟨fs3, e | u⟩ <;> rfl

/-- The bytes one option of gc-add or gc-delete wants to write. -/
def optionBytes (vals : Option (List Text)) (mk : List VertexId → Run (List GraphCommand)) : Nat :=
  match vals with
  | none => 0
  | some l =>
    match (Run.unwrap (Args.parseVertexIdList l)).bind mk with
    | .done cs => (Format.Gcmd.commandsText cs).length
    | _ => 0

theorem mutateStep_room {root : FPath} {vals : Option (List Text)} {mk : List VertexId → Run (List GraphCommand)} {fs : FS} {free : Nat}
    (h : optionBytes vals mk ≤ free) :
    ∃ free', free ≤ free' + optionBytes vals mk ∧
      mutateStep root vals mk fs free = ((Store.mutateStep root vals mk fs).1, free', (Store.mutateStep root vals mk fs).2) := by
  unfold mutateStep Store.mutateStep
  unfold optionBytes at h ⊢
  cases vals with
  | none => exact ⟨free, by omega, rfl⟩
  | some l =>
    dsimp only at h ⊢
    generalize (Run.unwrap (Args.parseVertexIdList l)).bind mk = r at h ⊢
    cases r with
    | running => exact ⟨free, by omega, rfl⟩
    | panicked => exact ⟨free, by omega, rfl⟩
    | done cs =>
      dsimp only at h ⊢
      obtain ⟨free', h1, h2⟩ := applyGraphCommands_room (root := root) (fs := fs) h
      exact ⟨free', h1, by rw [h2]⟩

/-- Two programs in a row, each with enough room for it and what follows. -/
theorem andThen_room {n m free : Nat} {r : FS × Nat × Exit} {r' : FS × Exit} {f : FS → Nat → FS × Nat × Exit} {f' : FS → FS × Exit}
    (h : n + m ≤ free) (hr : ∃ free', free ≤ free' + n ∧ r = (r'.1, free', r'.2))
    (hf : ∀ fs free, m ≤ free → ∃ free', free ≤ free' + m ∧ f fs free = ((f' fs).1, free', (f' fs).2)) :
    ∃ free', free ≤ free' + (n + m) ∧ andThen r f = ((Store.andThen r' f').1, free', (Store.andThen r' f').2) := by
  obtain ⟨free1, h1, h2⟩ := hr
  subst h2
  rcases r' with ⟨fs1, _ | _⟩
  · obtain ⟨free2, h3, h4⟩ := hf fs1 free1 (by omega)
    exact ⟨free2, by omega, h4⟩
  · exact ⟨free1, by omega, rfl⟩

end Disk
end GC
