/-
Proofs about one addition of any size, with any number of queries running at the same time.
-/
import Verif.Proofs.Concurrent
namespace GC
namespace Concurrent
open Store Text Format

/-! ### Where the `write` calls cut the text -/

/-- The first `write` calls of a buffer that took `ps` write the first of these texts, completely. -/
structure Cuts (w : BufWriter) (ps : List Text) : Prop where
  cut : ∀ m, ∃ j ≤ ps.length, (w.writes.take m).flatten = (ps.take j).flatten
  all : w.writes.flatten ++ w.buffer = ps.flatten

theorem Cuts.concat {ws ps : List Text} (h : ∀ m, ∃ j ≤ ps.length, (ws.take m).flatten = (ps.take j).flatten) {t : Text}
    (ht : ws.flatten ++ t = ps.flatten) (m : Nat) : ∃ j ≤ ps.length, ((ws ++ [t]).take m).flatten = (ps.take j).flatten := by
  by_cases hm : m ≤ ws.length
  · rw [List.take_append_of_le_length hm]
    exact h m
  · refine ⟨ps.length, Nat.le_refl _, ?_⟩
    rw [List.take_of_length_le (by simp; omega), List.take_length, ← ht]
    simp

theorem Cuts.flush {w : BufWriter} {ps : List Text} (h : Cuts w ps) : Cuts w.flush ps := by
  refine ⟨?_, by rw [flush_flatten]; exact h.all⟩
  unfold BufWriter.flush
  split
  · exact h.cut
  · exact Cuts.concat h.cut h.all

theorem Cuts.more {w : BufWriter} {ps : List Text} (h : Cuts w ps) (t : Text) (m : Nat) :
    ∃ j ≤ (ps ++ [t]).length, (w.writes.take m).flatten = ((ps ++ [t]).take j).flatten := by
  obtain ⟨j, hj, e⟩ := h.cut m
  exact ⟨j, by simp; omega, by rw [e, List.take_append_of_le_length hj]⟩

theorem Cuts.write {w : BufWriter} {ps : List Text} (h : Cuts w ps) (t : Text) : Cuts (w.write t) (ps ++ [t]) := by
  refine ⟨?_, by rw [write_flatten, h.all]; simp⟩
  have key : ∀ w : BufWriter, Cuts w ps → (t.length ≥ bufCapacity → w.buffer = []) → ∀ m, ∃ j ≤ (ps ++ [t]).length,
      ((if t.length ≥ bufCapacity then (⟨w.writes ++ [t], w.buffer⟩ : BufWriter) else ⟨w.writes, w.buffer ++ t⟩).writes.take m).flatten =
        ((ps ++ [t]).take j).flatten := by
    intro w h hb
    split
    · rename_i hl
      apply Cuts.concat (h.more t)
      have := h.all
      rw [hb hl, List.append_nil] at this
      rw [this]
      simp
    · exact h.more t
  unfold BufWriter.write
  dsimp only
  by_cases hw : w.buffer.length + t.length > bufCapacity
  · rw [if_pos hw]
    exact key _ h.flush fun _ => flush_buffer w
  · rw [if_neg hw]
    apply key _ h
    intro hl
    rw [← List.length_eq_zero_iff]
    unfold bufCapacity at *
    omega

theorem Cuts.foldl {w : BufWriter} {ps : List Text} (h : Cuts w ps) (qs : List Text) : Cuts (qs.foldl BufWriter.write w) (ps ++ qs) := by
  induction qs generalizing w ps with
  | nil => simpa using h
  | cons q qs ih =>
    rw [List.foldl_cons]
    have := ih (h.write q)
    rwa [List.append_assoc, List.singleton_append] at this

theorem cuts_bufferedWrites (ps : List Text) (m : Nat) : ∃ j ≤ ps.length, ((bufferedWrites ps).take m).flatten = (ps.take j).flatten := by
  have h0 : Cuts ⟨[], []⟩ [] := ⟨fun m => ⟨0, Nat.le_refl _, by simp⟩, rfl⟩
  have := (h0.foldl ps).flush.cut m
  rwa [List.nil_append] at this

/-- The text of the first `n` commands; the last line feed may be missing. -/
inductive CutText (cs : List GraphCommand) : Nat → Text → Prop where
  | whole {n} : n ≤ cs.length → CutText cs n (Gcmd.commandsText (cs.take n))
  | open {n c} : cs[n]? = some c → CutText cs (n + 1) (Gcmd.commandsText (cs.take n) ++ Gcmd.commandIntoLine c)

theorem CutText.le {cs : List GraphCommand} {n : Nat} {t : Text} (h : CutText cs n t) : n ≤ cs.length := by
  cases h with
  | whole h => exact h
  | @«open» n c h =>
    rcases Nat.lt_or_ge n cs.length with h' | h'
    · exact h'
    · rw [List.getElem?_eq_none h'] at h; cases h

theorem commandsText_cons (c : GraphCommand) (cs : List GraphCommand) :
    Gcmd.commandsText (c :: cs) = Gcmd.commandIntoLine c ++ ['\n'] ++ Gcmd.commandsText cs := by simp [Gcmd.commandsText]

theorem CutText.cons {cs : List GraphCommand} {n : Nat} {t : Text} (h : CutText cs n t) (c : GraphCommand) :
    CutText (c :: cs) (n + 1) (Gcmd.commandIntoLine c ++ ['\n'] ++ t) := by
  cases h with
  | @whole n h =>
    rw [← commandsText_cons, ← List.take_succ_cons]
    exact .whole (by simpa using h)
  | @«open» n d h =>
    rw [← List.append_assoc, ← commandsText_cons, ← List.take_succ_cons]
    exact .open (by simpa using h)

theorem cutText_pieces (cs : List GraphCommand) (j : Nat) :
    CutText cs (min ((j + 1) / 2) cs.length) (((cs.flatMap fun c => [Gcmd.commandIntoLine c, ['\n']]).take j).flatten) := by
  induction cs generalizing j with
  | nil => simpa [Gcmd.commandsText] using CutText.whole (cs := []) (n := 0) (Nat.le_refl _)
  | cons c cs ih =>
    match j with
    | 0 => simpa [Gcmd.commandsText] using CutText.whole (cs := c :: cs) (n := 0) (Nat.zero_le _)
    | 1 =>
      have := CutText.open (cs := c :: cs) (n := 0) (c := c) rfl
      simpa [Gcmd.commandsText] using this
    | j + 2 =>
      have := (ih j).cons c
      have e : min ((j + 1) / 2) cs.length + 1 = min ((j + 2 + 1) / 2) (c :: cs).length := by
        simp only [List.length_cons]; omega
      rw [e] at this
      simpa using this

theorem cutText_writes (cs : List GraphCommand) (m : Nat) : ∃ n, CutText cs n ((addWrites cs).take m).flatten := by
  obtain ⟨j, _, e⟩ := cuts_bufferedWrites (cs.flatMap fun c => [Gcmd.commandIntoLine c, ['\n']]) m
  unfold addWrites
  rw [e]
  exact ⟨_, cutText_pieces cs j⟩

theorem length_commandsText_le (cs ds : List GraphCommand) : (Gcmd.commandsText cs).length ≤ (Gcmd.commandsText (cs ++ ds)).length := by
  simp [Gcmd.commandsText]

theorem commandsText_take_succ {cs : List GraphCommand} {n : Nat} {c : GraphCommand} (h : cs[n]? = some c) :
    Gcmd.commandsText (cs.take (n + 1)) = Gcmd.commandsText (cs.take n) ++ Gcmd.commandIntoLine c ++ ['\n'] := by
  rw [List.take_add_one, h]
  simp [Gcmd.commandsText]

theorem commandsText_take_mono (cs : List GraphCommand) {a b : Nat} (h : a ≤ b) :
    (Gcmd.commandsText (cs.take a)).length ≤ (Gcmd.commandsText (cs.take b)).length := by
  have e : cs.take b = cs.take a ++ (cs.take b).drop a := by
    have := List.take_append_drop a (cs.take b)
    rwa [List.take_take, Nat.min_eq_left h, eq_comm] at this
  rw [e]
  exact length_commandsText_le _ _

theorem commandIntoLine_ne_nil (c : GraphCommand) : Gcmd.commandIntoLine c ≠ [] := (gcmd_syntax_commandIntoLine c).active.1

/-- Longer texts have more commands. -/
theorem CutText.mono {cs : List GraphCommand} {n m : Nat} {s t : Text} (hs : CutText cs n s) (ht : CutText cs m t) (h : s.length ≤ t.length) :
    n ≤ m := by
  by_contra hlt
  have upper : t.length ≤ (Gcmd.commandsText (cs.take m)).length := by
    cases ht with
    | whole h => exact Nat.le_refl _
    | «open» hc => rw [commandsText_take_succ hc]; simp
  cases hs with
  | @whole n hn =>
    obtain ⟨k, rfl⟩ : ∃ k, n = k + 1 := ⟨n - 1, by omega⟩
    have hk : cs[k]? = some cs[k] := List.getElem?_eq_getElem (by omega)
    have := commandsText_take_mono cs (a := m) (b := k) (by omega)
    rw [commandsText_take_succ hk] at h
    simp only [List.length_append, List.length_singleton] at h
    omega
  | @«open» k c hc =>
    have := commandsText_take_mono cs (a := m) (b := k) (by omega)
    have := List.length_pos_iff.2 (commandIntoLine_ne_nil c)
    simp only [List.length_append] at h
    omega

theorem CutText.full {cs : List GraphCommand} {n : Nat} (h : CutText cs n (Gcmd.commandsText cs)) : n = cs.length := by
  have h1 := h.le
  have h2 := CutText.mono (CutText.whole (cs := cs) (n := cs.length) (Nat.le_refl _)) h (by rw [List.take_length])
  omega

/-! ### Reading a text that was cut -/

section ReadsAs
variable {parse : Text → Run (Except Text GraphCommand)}

/-- The lines that are not skipped. -/
def activeLines (ls : List Text) : List Text := ls.filter fun l => !l.isEmpty && !isComment l

theorem activeLines_append (a b : List Text) : activeLines (a ++ b) = activeLines a ++ activeLines b := by simp [activeLines]

theorem readsAs_activeLines {ls : List Text} {cs : List GraphCommand} : ReadsAs parse (activeLines ls) cs ↔ ReadsAs parse ls cs := by
  induction ls generalizing cs with
  | nil => exact Iff.rfl
  | cons l ls ih =>
    by_cases ha : ActiveLine l
    · have e : activeLines (l :: ls) = l :: activeLines ls := by
        unfold activeLines
        exact List.filter_cons_of_pos (active_iff.2 ha)
      rw [e]
      constructor
      · intro h
        cases h with
        | skip h _ => exact absurd ha h
        | cons _ h2 h3 => exact .cons ha h2 (ih.1 h3)
      · intro h
        cases h with
        | skip h _ => exact absurd ha h
        | cons _ h2 h3 => exact .cons ha h2 (ih.2 h3)
    · have e : activeLines (l :: ls) = activeLines ls := by
        unfold activeLines
        exact List.filter_cons_of_neg (fun h => ha (active_iff.1 h))
      rw [e, ih]
      constructor
      · exact .skip ha
      · intro h
        cases h with
        | skip _ h => exact h
        | cons h _ _ => exact absurd h ha

end ReadsAs

theorem loadLines_readsAs {nd : Char → Bool} {ls : List Text} {cs : List GraphCommand} (h : ReadsAs (Gcmd.parseLine nd) ls cs) :
    loadLines nd ls = .done (.ok (GraphCommand.applyCommands cs .new)) := by
  unfold loadLines
  have := readLoop_append h 0 [] []
  simp only [List.append_nil] at this
  rw [this]
  simp [readLoop]

theorem lines_line (c : GraphCommand) : lines (Gcmd.commandIntoLine c) = [Gcmd.commandIntoLine c] := by
  rw [lines_no_newline _ (plain_commandIntoLine c).1, if_neg]
  simpa using commandIntoLine_ne_nil c

theorem lines_line_newline (c : GraphCommand) : lines (Gcmd.commandIntoLine c ++ ['\n']) = [Gcmd.commandIntoLine c] := by
  rw [lines_newline _ (plain_commandIntoLine c).1, stripCr_plain (plain_commandIntoLine c)]
  rfl

theorem line_last (c : GraphCommand) : (Gcmd.commandIntoLine c).getLast? ≠ some '\n' := fun h =>
  (plain_commandIntoLine c).1 _ (List.mem_of_getLast? h) rfl

/-- What a cut file reads as. -/
theorem CutText.reads {nd : Char → Bool} {base : Text} {bcs cs : List GraphCommand} (ht : NewlineTerminated base)
    (hb : ReadsAs (Gcmd.parseLine nd) (lines base) bcs) {n : Nat} {t : Text} (h : CutText cs n t) :
    ReadsAs (Gcmd.parseLine nd) (lines (base ++ t)) (bcs ++ cs.take n) := by
  rw [lines_append ht]
  apply hb.append
  cases h with
  | whole h => rw [lines_commandsText]; exact readsAs_commandLines nd _
  | @«open» n c h =>
    rw [lines_append (terminated_commandsText _), lines_commandsText, lines_line, List.take_add_one, h]
    have := readsAs_commandLines nd (cs.take n ++ [c])
    rw [List.map_append] at this
    exact this

/-- Reading on after the end of the file was met: `a` is what was read before, `b` what was read afterwards. -/
theorem CutText.join {base : Text} {cs : List GraphCommand} (ht : NewlineTerminated base) {n : Nat} {t a b : Text}
    (h : CutText cs n t) (ha : a = base ++ t) (hn : ¬ NewlineTerminated a) (hab : a ++ b <+: base ++ Gcmd.commandsText cs) :
    activeLines (lines (a ++ b)) = activeLines (lines a) ++ activeLines (lines b) := by
  cases h with
  | whole h => exact absurd (by rw [ha]; exact newlineTerminated_append ht (terminated_commandsText _)) hn
  | @«open» n c h =>
    cases b with
    | nil => simp [lines, linesAux, activeLines]
    | cons x b =>
      subst ha
      rw [List.append_assoc, List.prefix_append_right_inj] at hab
      have e : cs = cs.take n ++ c :: cs.drop (n + 1) := by
        have hn : n < cs.length := by
          by_contra hlt
          rw [List.getElem?_eq_none (by omega)] at h
          cases h
        rw [List.getElem?_eq_getElem hn] at h
        injection h with h
        rw [← h, List.getElem_cons_drop, List.take_append_drop]
      have e2 : Gcmd.commandsText cs = Gcmd.commandsText (cs.take n) ++ Gcmd.commandIntoLine c ++ '\n' :: Gcmd.commandsText (cs.drop (n + 1)) := by
        conv_lhs => rw [e]
        simp [Gcmd.commandsText]
      rw [e2, List.prefix_append_right_inj, List.cons_prefix_cons] at hab
      obtain ⟨rfl, -⟩ := hab
      have hX := newlineTerminated_append ht (terminated_commandsText (cs.take n))
      have e3 : base ++ (Gcmd.commandsText (cs.take n) ++ Gcmd.commandIntoLine c) ++ '\n' :: b =
          (base ++ Gcmd.commandsText (cs.take n)) ++ ((Gcmd.commandIntoLine c ++ ['\n']) ++ b) := by simp
      rw [e3, lines_append hX, lines_append (s := Gcmd.commandIntoLine c ++ ['\n']) (.inr (by simp)), lines_line_newline, ← List.append_assoc base,
        lines_append hX, lines_line]
      have e4 : lines ('\n' :: b) = [] :: lines b := by
        simp [lines, linesAux, stripCr]
      rw [e4, activeLines_append, activeLines_append, activeLines_append, List.append_assoc]
      rfl

/-! ### A reader next to one writer -/

/-- What a reader read so far: `total` is the content when the addition is complete, `content` the content now. -/
structure ReadsCut (cs : List GraphCommand) (base : Text) (r : Reader) (content : Text) : Prop where
  pre : r.closed.flatten ++ r.current <+: content
  offset : r.offset = (r.closed.flatten ++ r.current).length
  cut : r.closed = [] ∨ (¬ NewlineTerminated r.closed.flatten ∧ ∃ n t, CutText cs n t ∧ r.closed.flatten = base ++ t)
  lines : activeLines (r.closed.flatMap lines) = activeLines (lines r.closed.flatten)

theorem ReadsCut.new (cs : List GraphCommand) (base content : Text) : ReadsCut cs base ⟨[], [], 0⟩ content :=
  ⟨by simp, rfl, .inl rfl, by simp [Text.lines, linesAux]⟩

theorem ReadsCut.mono {cs : List GraphCommand} {base : Text} {r : Reader} {c d : Text} (h : ReadsCut cs base r c) (hd : c <+: d) :
    ReadsCut cs base r d := ⟨h.pre.trans hd, h.offset, h.cut, h.lines⟩

theorem ReadsCut.active {cs : List GraphCommand} {base : Text} {r : Reader} {c : Text} (ht : NewlineTerminated base)
    (h : ReadsCut cs base r c) (hc : c <+: base ++ Gcmd.commandsText cs) :
    activeLines r.lines = activeLines (Text.lines (r.closed.flatten ++ r.current)) := by
  unfold Reader.lines
  rw [activeLines_append, h.lines]
  rcases h.cut with e | ⟨h1, n, t, h2, h3⟩
  · rw [e]; simp [Text.lines, linesAux, activeLines]
  · rw [h2.join ht h3 h1 (h.pre.trans hc)]

theorem getLast?_append_right {α : Type} (a : List α) {b : List α} (h : b ≠ []) : (a ++ b).getLast? = b.getLast? := by
  rw [List.getLast?_append]
  cases e : b.getLast? with
  | none => rw [List.getLast?_eq_none_iff] at e; exact absurd e h
  | some x => rfl

/-- One `read` next to one writer. The second number of the measure is the number of times the end of the file was met. -/
theorem stepRead_cut {nd : Char → Bool} {root : FPath} {fs : FS} {base t : Text} {bcs cs : List GraphCommand} {n : Nat} {r : Reader}
    (ht : NewlineTerminated base) (hb : ReadsAs (Gcmd.parseLine nd) (lines base) bcs)
    (hcut : CutText cs n t) (hc : Content root fs (base ++ t)) (hp : base ++ t <+: base ++ Gcmd.commandsText cs)
    (h : ReadsCut cs base r (base ++ t)) :
    (∃ r', stepRead nd root r fs = .more r' ∧ ReadsCut cs base r' (base ++ t)) ∨
      stepRead nd root r fs = .returned (.done (.ok (GraphCommand.applyCommands (bcs ++ cs.take n) .new))) := by
  obtain ⟨rest, hrest⟩ := h.pre
  have hoff : (base ++ t).drop r.offset = rest := by rw [h.offset, ← hrest, List.drop_left]
  unfold Content at hc
  unfold stepRead
  rw [hc]
  dsimp only
  by_cases hn : readChunk (base ++ t) r.offset = []
  · rw [if_neg (by simpa using hn)]
    have hr : rest = [] := by
      unfold readChunk at hn
      rw [hoff] at hn
      rcases List.take_eq_nil_iff.1 hn with h | h
      · cases h
      · exact h
    rw [hr, List.append_nil] at hrest
    have hact := h.active ht hp
    by_cases hl : r.current = [] ∨ r.current.getLast? = some '\n'
    · right
      rw [if_pos hl]
      congr 1
      apply loadLines_readsAs
      rw [← readsAs_activeLines, hact, readsAs_activeLines, hrest]
      exact hcut.reads ht hb
    · left
      rw [if_neg hl]
      push Not at hl
      refine ⟨_, rfl, ?_, ?_, ?_, ?_⟩
      · simp only [List.flatten_append, List.flatten_singleton, List.append_nil]
        exact h.pre
      · simp only [List.flatten_append, List.flatten_singleton, List.append_nil]
        exact h.offset
      · right
        simp only [List.flatten_append, List.flatten_singleton]
        refine ⟨?_, n, t, hcut, hrest⟩
        rintro (e | e)
        · exact hl.1 (List.append_eq_nil_iff.1 e).2
        · rw [getLast?_append_right _ hl.1] at e
          exact hl.2 e
      · simp only [List.flatMap_append, List.flatten_append, List.flatten_singleton, List.flatMap_singleton]
        exact hact
  · left
    rw [if_pos hn]
    refine ⟨_, rfl, ?_, ?_, h.cut, h.lines⟩
    · unfold readChunk
      rw [hoff]
      dsimp only
      rw [← hrest, ← List.append_assoc, List.prefix_append_right_inj]
      exact List.take_prefix _ _
    · simp only [h.offset, List.length_append]
      omega

/-- Where a query is next to one writer. `n0` commands were stored before it began, `n` are stored now. -/
inductive CutOk (base : Text) (bcs cs : List GraphCommand) (n0 n : Nat) (content : Text) : Pc → Prop where
  | start : CutOk base bcs cs n0 n content .start
  | reading {r} : ReadsCut cs base r content → CutOk base bcs cs n0 n content (.reading r)
  | answered {k} : n0 ≤ k → k ≤ n →
      CutOk base bcs cs n0 n content (.answered (.done (.ok (GraphCommand.applyCommands (bcs ++ cs.take k) .new))))

theorem CutOk.mono {base : Text} {bcs cs : List GraphCommand} {n0 n m : Nat} {c d : Text} {pc : Pc} (h : CutOk base bcs cs n0 n c pc)
    (hnm : n ≤ m) (hd : c <+: d) : CutOk base bcs cs n0 m d pc := by
  cases h with
  | start => exact .start
  | reading h => exact .reading (h.mono hd)
  | answered h1 h2 => exact .answered h1 (by omega)

/-- One addition (process `a`) and queries. -/
structure OneInv (root : FPath) (jobs : List Job) (a : Nat) (base : Text) (bcs cs : List GraphCommand) (n0 : Nat → Nat)
    (n : Nat) (t : Text) (s : Sys) : Prop where
  ready : Ready root s.fs
  content : Content root s.fs (base ++ t)
  cut : CutText cs n t
  log : ∃ l, PcOk (s.pc a) l (addWrites cs) ∧ t = l.flatten
  query : ∀ i : Nat, jobs[i]? = some .query → CutOk base bcs cs (n0 i) n (base ++ t) (s.pc i)
  began : ∀ i : Nat, n0 i ≤ n

theorem OneInv.total {root : FPath} {jobs : List Job} {a : Nat} {base : Text} {bcs cs : List GraphCommand} {n0 : Nat → Nat}
    {n : Nat} {t : Text} {s : Sys} (h : OneInv root jobs a base bcs cs n0 n t s) : base ++ t <+: base ++ Gcmd.commandsText cs := by
  obtain ⟨l, h1, rfl⟩ := h.log
  rw [List.prefix_append_right_inj, ← addWrites_flatten]
  obtain ⟨l', e⟩ := h1.prefix
  exact ⟨l'.flatten, by rw [← e]; simp⟩

theorem OneInv.step {nd : Char → Bool} {order : Nat → DirectedGraph → DirectedGraph} {root : FPath} {jobs : List Job} {a : Nat} {base : Text}
    {bcs cs : List GraphCommand} (ha : jobs[a]? = some (.add cs)) (hj : ∀ (j : Nat) (job : Job), jobs[j]? = some job → j = a ∨ job = .query)
    (ht : NewlineTerminated base) (hb : ReadsAs (Gcmd.parseLine nd) (lines base) bcs)
    {n0 : Nat → Nat} {n : Nat} {t : Text} {s : Sys} (h : OneInv root jobs a base bcs cs n0 n t s) (i : Nat) :
    ∃ n' t', n ≤ n' ∧ t <+: t' ∧ OneInv root jobs a base bcs cs n0 n' t' (Concurrent.step nd order root jobs s i) := by
  cases e : jobs[i]? with
  | none => rw [step_none e]; exact ⟨n, t, Nat.le_refl _, List.prefix_refl _, h⟩
  | some job =>
    have hpc : ∀ j, j ≠ i → (Concurrent.step nd order root jobs s i).pc j = s.pc j := by
      intro j hj
      unfold Concurrent.step
      rw [e]
      simp [hj]
    by_cases hia : i = a
    · subst hia
      rw [ha] at e
      cases e
      -- the writer alone, as an instance of `AddInv`
      obtain ⟨l, hl, rfl⟩ := h.log
      let jobs' : List Job := List.replicate i .query ++ [.add cs]
      have hjobs' : jobs'[i]? = some (.add cs) := by simp [jobs']
      have hadd : AddInv root jobs' base [] (l.map fun x => (i, x)) s := by
        refine ⟨h.ready, ?_, ?_, ?_⟩
        · have := h.content
          simpa [Function.comp_def] using this
        · intro j ds hjd
          have : j = i := by
            by_contra hne
            rcases Nat.lt_or_ge j i with hlt | hge
            · rw [List.getElem?_append_left (by simpa using hlt), List.getElem?_replicate, if_pos hlt] at hjd
              cases hjd
            · rw [List.getElem?_eq_none (by simp [jobs']; omega)] at hjd
              cases hjd
          subst this
          rw [hjobs'] at hjd
          cases hjd
          have e2 : logOf j ([] ++ l.map fun x => (j, x)) = l := by
            unfold logOf
            rw [List.nil_append, List.filter_eq_self.2 (by simp)]
            simp [Function.comp_def]
          rw [e2]
          exact hl
        · intro p hp
          rw [List.nil_append, List.mem_map] at hp
          obtain ⟨x, _, rfl⟩ := hp
          exact ⟨cs, hjobs'⟩
      obtain ⟨log', h'⟩ := hadd.step (nd := nd) (order := order) hjobs'
      have estep : Concurrent.step nd order root jobs' s i = Concurrent.step nd order root jobs s i := by
        unfold Concurrent.step
        rw [hjobs', ha]
      rw [estep] at h'
      have hok := h'.ok i cs hjobs'
      have hall : ∀ p ∈ (l.map fun x => (i, x)) ++ log', p.1 = i := by
        intro p hp
        obtain ⟨ds, hds⟩ := h'.known p (by simpa using hp)
        by_contra hne
        rcases Nat.lt_or_ge p.1 i with hlt | hge
        · rw [List.getElem?_append_left (by simpa using hlt), List.getElem?_replicate, if_pos hlt] at hds
          cases hds
        · rw [List.getElem?_eq_none (by simp [jobs']; omega)] at hds
          cases hds
      have elog : logOf i ([] ++ ((l.map fun x => (i, x)) ++ log')) = l ++ log'.map Prod.snd := by
        unfold logOf
        rw [List.nil_append, List.filter_eq_self.2 (by simpa using hall)]
        simp [Function.comp_def]
      rw [elog] at hok
      have hcont := h'.content
      have econt : (((l.map fun x => (i, x)) ++ log').map Prod.snd).flatten = (l ++ log'.map Prod.snd).flatten := by
        simp [Function.comp_def]
      rw [econt] at hcont
      obtain ⟨n', hn'⟩ := cutText_writes cs (l ++ log'.map Prod.snd).length
      rw [← List.prefix_iff_eq_take.1 hok.prefix] at hn'
      have hpre : l.flatten <+: (l ++ log'.map Prod.snd).flatten := by
        rw [List.flatten_append]; exact List.prefix_append _ _
      have hnn := h.cut.mono hn' hpre.length_le
      refine ⟨n', _, hnn, hpre, h'.ready, hcont, hn', ⟨_, hok, rfl⟩, ?_, fun j => Nat.le_trans (h.began j) hnn⟩
      intro j hjq
      rw [hpc j (by rintro rfl; rw [ha] at hjq; cases hjq)]
      exact (h.query j hjq).mono hnn (by rw [List.prefix_append_right_inj]; exact hpre)
    · have hq : job = .query := (hj i job e).resolve_left hia
      subst hq
      have hfs : (Concurrent.step nd order root jobs s i).fs = s.fs := by
        unfold Concurrent.step
        rw [e]
        exact stepQuery_fs nd root _ _
      refine ⟨n, t, Nat.le_refl _, List.prefix_refl _, by rw [hfs]; exact h.ready, by rw [hfs]; exact h.content, h.cut, ?_, ?_, h.began⟩
      · rw [hpc a (Ne.symm hia)]; exact h.log
      · intro j hjq
        by_cases hji : j = i
        · subst hji
          have hp : (Concurrent.step nd order root jobs s j).pc j = (stepQuery nd root (s.pc j) s.fs).2 := by
            unfold Concurrent.step
            rw [e]
            simp [stepJob]
          rw [hp]
          have hok := h.query j hjq
          generalize s.pc j = pc at hok
          cases hok with
          | start =>
            simp only [stepQuery, stepOpen_content h.content]
            exact .reading (.new _ _ _)
          | reading hr =>
            rcases stepRead_cut (nd := nd) ht hb h.cut h.content h.total hr with ⟨r', e1, h1⟩ | e1
            · simp only [stepQuery, e1]
              exact .reading h1
            · simp only [stepQuery, e1]
              exact .answered (h.began j) (Nat.le_refl _)
          | answered h1 h2 => exact .answered h1 h2
        · rw [hpc j hji]; exact h.query j hjq

theorem OneInv.run {nd : Char → Bool} {order : Nat → DirectedGraph → DirectedGraph} {root : FPath} {jobs : List Job} {a : Nat} {base : Text}
    {bcs cs : List GraphCommand} (ha : jobs[a]? = some (.add cs)) (hj : ∀ (j : Nat) (job : Job), jobs[j]? = some job → j = a ∨ job = .query)
    (ht : NewlineTerminated base) (hb : ReadsAs (Gcmd.parseLine nd) (lines base) bcs)
    {n0 : Nat → Nat} (sched : List Nat) {n : Nat} {t : Text} {s : Sys} (h : OneInv root jobs a base bcs cs n0 n t s) :
    ∃ n' t', n ≤ n' ∧ t <+: t' ∧ OneInv root jobs a base bcs cs n0 n' t' (sched.foldl (Concurrent.step nd order root jobs) s) := by
  induction sched generalizing n t s with
  | nil => exact ⟨n, t, Nat.le_refl _, List.prefix_refl _, h⟩
  | cons i sched ih =>
    rw [List.foldl_cons]
    obtain ⟨n1, t1, h1, h2, h3⟩ := h.step (order := order) ha hj ht hb i
    obtain ⟨n2, t2, h4, h5, h6⟩ := ih h3
    exact ⟨n2, t2, by omega, h2.trans h5, h6⟩

theorem oneInv_init {root : FPath} {jobs : List Job} {a : Nat} {base : Text} {bcs cs : List GraphCommand} {fs : FS}
    (hr : Ready root fs) (hc : Content root fs base) : OneInv root jobs a base bcs cs (fun _ => 0) 0 [] ⟨fs, fun _ => .start⟩ :=
  ⟨hr, by simpa using hc, by simpa [Gcmd.commandsText] using CutText.whole (cs := cs) (n := 0) (Nat.zero_le _),
    ⟨[], .start, rfl⟩, fun _ _ => .start, fun _ => Nat.le_refl _⟩

theorem OneInv.done {root : FPath} {jobs : List Job} {a : Nat} {base : Text} {bcs cs : List GraphCommand} {n0 : Nat → Nat}
    {n : Nat} {t : Text} {s : Sys} (h : OneInv root jobs a base bcs cs n0 n t s) (hf : Finished (s.pc a)) : n = cs.length := by
  obtain ⟨l, h1, e⟩ := h.log
  obtain ⟨ok, hf⟩ := hf
  rw [hf] at h1
  cases h1 with
  | finished =>
    have hcut := h.cut
    rw [e, addWrites_flatten] at hcut
    exact hcut.full

/-- Increases with every step of a reader. -/
def oneRank : Pc → Nat
  | .reading r => 2 * r.offset + (if r.current = [] ∧ r.closed ≠ [] then 1 else 0) + 1
  | _ => 0

theorem stepRead_rank {nd : Char → Bool} {root : FPath} {fs : FS} {r r' : Reader} (h : stepRead nd root r fs = .more r') :
    oneRank (.reading r) < oneRank (.reading r') := by
  unfold stepRead at h
  split at h
  · rename_i c _
    dsimp only at h
    split at h
    · rename_i hn
      injection h with h
      subst h
      have := List.length_pos_iff.2 hn
      simp only [oneRank]
      split <;> split <;> omega
    · split at h
      · cases h
      · rename_i hl
        injection h with h
        subst h
        simp only [oneRank]
        push Not at hl
        rw [if_neg (fun h => hl.1 h.1), if_pos ⟨trivial, by simp⟩]
        omega
  · cases h

theorem oneReader_progress {nd : Char → Bool} {order : Nat → DirectedGraph → DirectedGraph} {root : FPath} {jobs : List Job} {a : Nat} {base : Text}
    {bcs cs : List GraphCommand} (ha : jobs[a]? = some (.add cs)) (hj : ∀ (j : Nat) (job : Job), jobs[j]? = some job → j = a ∨ job = .query)
    (ht : NewlineTerminated base) (hb : ReadsAs (Gcmd.parseLine nd) (lines base) bcs) (i : Nat) (hi : jobs[i]? = some .query)
    {n0 : Nat → Nat} (sched : List Nat) {n : Nat} {t : Text} {s : Sys} (h : OneInv root jobs a base bcs cs n0 n t s) :
    (∃ res, (sched.foldl (Concurrent.step nd order root jobs) s).pc i = .answered res) ∨
      oneRank (s.pc i) + sched.count i ≤ 2 * (base ++ Gcmd.commandsText cs).length + 2 := by
  induction sched generalizing n t s with
  | nil =>
    have hq := h.query i hi
    have htot := h.total.length_le
    simp only [List.foldl_nil]
    generalize s.pc i = pc at hq
    cases hq with
    | start => right; simp [oneRank]
    | reading hr =>
      right
      have := hr.pre.length_le
      rw [← hr.offset] at this
      simp only [oneRank, List.count_nil]
      split <;> omega
    | answered => exact .inl ⟨_, rfl⟩
  | cons j sched ih =>
    rw [List.foldl_cons]
    obtain ⟨n', t', -, -, h'⟩ := h.step (order := order) ha hj ht hb j
    rcases ih h' with h1 | h1
    · exact .inl h1
    · by_cases hji : j = i
      · subst hji
        have hpc : (Concurrent.step nd order root jobs s j).pc j = (stepQuery nd root (s.pc j) s.fs).2 := by
          unfold Concurrent.step
          rw [hi]
          simp [stepJob]
        have hans : ∀ res, (Concurrent.step nd order root jobs s j).pc j = .answered res →
            ∃ res, (sched.foldl (Concurrent.step nd order root jobs) (Concurrent.step nd order root jobs s j)).pc j = .answered res :=
          fun res e => ⟨res, answered_run sched hi e⟩
        rw [hpc] at h1 hans
        have hq := h.query j hi
        rw [List.count_cons_self]
        generalize s.pc j = pc at hq h1 hans
        cases hq with
        | start =>
          right
          simp only [stepQuery, stepOpen_content h.content] at h1
          simp only [oneRank] at h1 ⊢
          simp only [ne_eq, not_true_eq_false, and_false, if_false] at h1
          omega
        | reading hr =>
          rcases stepRead_cut (nd := nd) ht hb h.cut h.content h.total hr with ⟨r', e1, _⟩ | e1
          · right
            have := stepRead_rank e1
            simp only [stepQuery, e1] at h1
            omega
          · left
            exact hans _ (by simp only [stepQuery, e1]; rfl)
        | answered => exact .inl (hans _ rfl)
      · right
        have hpc : (Concurrent.step nd order root jobs s j).pc i = s.pc i := by
          unfold Concurrent.step
          split
          · rfl
          · simp [Ne.symm hji]
        rw [hpc] at h1
        rw [List.count_cons_of_ne hji]
        exact h1

end Concurrent
end GC
