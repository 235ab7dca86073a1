/-
What a query can load while one gc-build runs.
-/
import Verif.Proofs.BuildReaders
import Verif.Spec.DuringBuild
namespace GC
namespace Concurrent
open Store Text Format

/-! ### What a query has read -/

/-- A content of the file while gc-build writes: what its first `write` calls have written. -/
def Part (g : DirectedGraph) (w : Text) : Prop := ∃ done rest, done ++ rest = saveWrites g ∧ w = done.flatten

/-- The first text of a reader: the beginning of the old file, and then what stood at these places in the new one. -/
def FirstText (g : DirectedGraph) (c t : Text) : Prop := ∃ k w, Part g w ∧ t = c.take k ++ w.drop k

/-- A later text of a reader. -/
def RestText (g : DirectedGraph) (t : Text) : Prop := ∃ a w, Part g w ∧ t = w.drop a

/-- A first text that is not complete; `o` is the position in the file, which now contains `w`. -/
def FirstOpen (c w t : Text) (o : Nat) : Prop :=
  ∃ k m, k ≤ c.length ∧ t = c.take k ++ (w.drop k).take m ∧ o = k + m ∧ (m = 0 ∨ k + m ≤ w.length)

/-- A later text that is not complete. -/
def RestOpen (w t : Text) (o : Nat) : Prop := ∃ a, a ≤ o ∧ t = (w.take o).drop a ∧ (t = [] ∨ o ≤ w.length)

/-- Where a reader is. -/
def MixReader (g : DirectedGraph) (c w : Text) (r : Reader) : Prop :=
  (r.closed = [] ∧ FirstOpen c w r.current r.offset) ∨
  ∃ p ps, r.closed = p :: ps ∧ FirstText g c p ∧ (∀ q ∈ ps, RestText g q) ∧ RestOpen w r.current r.offset

/-- What a reader returns. -/
def MixRes (nd : Char → Bool) (g : DirectedGraph) (c : Text) (res : Run (Except LoadError DirectedGraph)) : Prop :=
  ∃ p ps, FirstText g c p ∧ (∀ q ∈ ps, RestText g q) ∧ res = loadLines nd ((p :: ps).flatMap lines)

/-- Where a query is after gc-build began to write. -/
inductive MixPc (nd : Char → Bool) (g : DirectedGraph) (c w : Text) : Pc → Prop where
  | start : MixPc nd g c w .start
  | reading {r} : MixReader g c w r → MixPc nd g c w (.reading r)
  | answered {res} : MixRes nd g c res → MixPc nd g c w (.answered res)

variable {nd : Char → Bool} {g : DirectedGraph} {c w : Text}

theorem readChunk_take (w : Text) (o : Nat) : readChunk w o = (w.drop o).take (readChunk w o).length := by
  unfold readChunk
  exact List.prefix_iff_eq_take.1 (List.take_prefix _ _)

theorem part_nil : Part g [] := ⟨[], saveWrites g, rfl, rfl⟩

theorem FirstOpen.read {t : Text} {o : Nat} (h : FirstOpen c w t o) (hn : readChunk w o ≠ []) :
    FirstOpen c w (t ++ readChunk w o) (o + (readChunk w o).length) := by
  obtain ⟨k, m, h1, rfl, rfl, h2⟩ := h
  have hlt : k + m < w.length := by
    by_contra hge
    apply hn
    unfold readChunk
    rw [List.drop_eq_nil_of_le (by omega)]
    rfl
  refine ⟨k, m + (readChunk w (k + m)).length, h1, ?_, by omega, .inr ?_⟩
  · rw [List.append_assoc]
    congr 1
    rw [List.take_add, List.drop_drop]
    congr 1
    exact readChunk_take w (k + m)
  · unfold readChunk
    rw [List.length_take, List.length_drop]
    omega

theorem FirstOpen.close {t : Text} {o : Nat} (h : FirstOpen c w t o) (hw : Part g w) (hn : readChunk w o = []) : FirstText g c t := by
  obtain ⟨k, m, h1, rfl, rfl, h2⟩ := h
  have hle : w.length ≤ k + m := by
    unfold readChunk at hn
    rcases List.take_eq_nil_iff.1 hn with h | h
    · cases h
    · exact List.drop_eq_nil_iff.1 h
  refine ⟨k, w, hw, ?_⟩
  rw [List.take_of_length_le (l := w.drop k)]
  rw [List.length_drop]
  omega

theorem RestOpen.read {t : Text} {o : Nat} (h : RestOpen w t o) (hn : readChunk w o ≠ []) :
    RestOpen w (t ++ readChunk w o) (o + (readChunk w o).length) := by
  obtain ⟨a, h1, rfl, h2⟩ := h
  have hlt : o < w.length := by
    by_contra hge
    apply hn
    unfold readChunk
    rw [List.drop_eq_nil_of_le (by omega)]
    rfl
  have hlen : o + (readChunk w o).length ≤ w.length := by
    unfold readChunk
    rw [List.length_take, List.length_drop]
    omega
  refine ⟨a, by omega, ?_, .inr hlen⟩
  have e := readChunk_take w o
  rw [List.take_add, ← e, List.drop_append_of_le_length]
  rw [List.length_take]
  omega

theorem RestOpen.close {t : Text} {o : Nat} (h : RestOpen w t o) (hw : Part g w) (hn : readChunk w o = []) : RestText g t := by
  obtain ⟨a, h1, rfl, h2⟩ := h
  rcases h2 with h2 | h2
  · rw [h2]
    exact ⟨0, [], part_nil, rfl⟩
  · have hle : w.length ≤ o := by
      unfold readChunk at hn
      rcases List.take_eq_nil_iff.1 hn with h | h
      · cases h
      · exact List.drop_eq_nil_iff.1 h
    exact ⟨a, w, hw, by rw [List.take_of_length_le hle]⟩

theorem MixPc.step {root : FPath} {fs : FS} {pc : Pc} (hc : Content root fs w) (hw : Part g w) (h : MixPc nd g c w pc) :
    MixPc nd g c w (stepQuery nd root pc fs).2 := by
  cases h with
  | start =>
    simp only [stepQuery, stepOpen_content hc]
    exact .reading (.inl ⟨rfl, 0, 0, by simp, by simp, rfl, .inl rfl⟩)
  | answered h => exact .answered h
  | @reading r h =>
    unfold Content at hc
    simp only [stepQuery, stepRead, hc]
    by_cases hn : readChunk w r.offset = []
    · rw [if_neg (by simpa using hn)]
      by_cases hl : r.current = [] ∨ r.current.getLast? = some '\n'
      · rw [if_pos hl]
        refine .answered ?_
        rcases h with ⟨h1, h2⟩ | ⟨p, ps, h1, h2, h3, h4⟩
        · refine ⟨r.current, [], h2.close hw hn, by simp, ?_⟩
          unfold Reader.lines
          rw [h1]
          simp
        · refine ⟨p, ps ++ [r.current], h2, ?_, ?_⟩
          · intro q hq
            rcases List.mem_append.1 hq with hq | hq
            · exact h3 q hq
            · rw [List.mem_singleton] at hq
              subst hq
              exact h4.close hw hn
          · unfold Reader.lines
            rw [h1]
            simp
      · rw [if_neg hl]
        refine .reading (.inr ?_)
        have hopen : RestOpen w [] r.offset := ⟨r.offset, Nat.le_refl _, by
          rw [List.drop_eq_nil_of_le]
          rw [List.length_take]
          omega, .inl rfl⟩
        rcases h with ⟨h1, h2⟩ | ⟨p, ps, h1, h2, h3, h4⟩
        · exact ⟨r.current, [], by simp [h1], h2.close hw hn, by simp, hopen⟩
        · refine ⟨p, ps ++ [r.current], by simp [h1], h2, ?_, hopen⟩
          intro q hq
          rcases List.mem_append.1 hq with hq | hq
          · exact h3 q hq
          · rw [List.mem_singleton] at hq
            subst hq
            exact h4.close hw hn
    · rw [if_pos hn]
      refine .reading ?_
      rcases h with ⟨h1, h2⟩ | ⟨p, ps, h1, h2, h3, h4⟩
      · exact .inl ⟨h1, h2.read hn⟩
      · exact .inr ⟨p, ps, h1, h2, h3, h4.read hn⟩

theorem MixPc.grow {pc : Pc} (h : MixPc nd g c w pc) (t : Text) : MixPc nd g c (w ++ t) pc := by
  cases h with
  | start => exact .start
  | answered h => exact .answered h
  | reading h =>
    refine .reading ?_
    rcases h with ⟨h1, k, m, h2, h3, h4, h5⟩ | ⟨p, ps, h1, h2, h3, a, h4, h5, h6⟩
    · refine .inl ⟨h1, k, m, h2, ?_, h4, ?_⟩
      · rcases h5 with rfl | h5
        · rw [h3, List.take_zero, List.take_zero]
        · rw [h3, List.drop_append_of_le_length (by omega), List.take_append_of_le_length]
          rw [List.length_drop]
          omega
      · rw [List.length_append]
        omega
    · refine .inr ⟨p, ps, h1, h2, h3, ?_⟩
      rcases h6 with h6 | h6
      · refine ⟨_, Nat.le_refl _, ?_, .inl h6⟩
        rw [h6, List.drop_eq_nil_of_le]
        rw [List.length_take]
        omega
      · refine ⟨a, h4, ?_, .inr (by rw [List.length_append]; omega)⟩
        rw [h5, List.take_append_of_le_length h6]

theorem SteadyOk.mix {pc : Pc} (h : SteadyOk nd c pc) : MixPc nd g c [] pc := by
  cases h with
  | start => exact .start
  | @reading r h =>
    refine .reading (.inl ⟨h.1, r.current.length, 0, h.2.2.length_le, ?_, by rw [h.2.1, Nat.add_zero], .inl rfl⟩)
    rw [List.take_zero, List.append_nil]
    exact List.prefix_iff_eq_take.1 h.2.2
  | answered =>
    exact .answered ⟨c, [], ⟨c.length, [], part_nil, by simp⟩, by simp, by simp⟩

/-! ### The invariant -/

/-- One gc-build and queries. -/
structure DuringInv (nd : Char → Bool) (root : FPath) (jobs : List Job) (b : Nat) (g : DirectedGraph) (fs0 : FS) (c : Text) (s : Sys) : Prop where
  base : BuildInv nd root jobs b g fs0 c (fun _ => False) s
  mixed : ¬ NotWritten (s.pc b) → ∃ w, Content root s.fs w ∧ Part g w ∧ ∀ i : Nat, jobs[i]? = some .query → MixPc nd g c w (s.pc i)

theorem DuringInv.step {order : Nat → DirectedGraph → DirectedGraph} {root : FPath} {jobs : List Job} {b : Nat}
    {fs0 : FS} (hb : jobs[b]? = some .build)
    (hj : ∀ (j : Nat) (job : Job), jobs[j]? = some job → j = b ∨ job = .query) (hc : Content root fs0 c) (ht : NewlineTerminated c)
    (hg : loadGraph nd root fs0 = .done (.ok g)) {s : Sys} (h : DuringInv nd root jobs b (order b g) fs0 c s) (i : Nat) :
    DuringInv nd root jobs b (order b g) fs0 c (Concurrent.step nd order root jobs s i) := by
  refine ⟨h.base.step hb hj hc ht hg i, ?_⟩
  cases e : jobs[i]? with
  | none => rw [step_none e]; exact h.mixed
  | some job =>
    have hpc : ∀ j, j ≠ i → (Concurrent.step nd order root jobs s i).pc j = s.pc j := by
      intro j hj
      unfold Concurrent.step
      rw [e]
      simp [hj]
    by_cases hib : i = b
    · subst hib
      rw [hb] at e
      cases e
      have h1 : (Concurrent.step nd order root jobs s i).pc i = (stepBuild nd (order i) root (s.pc i) s.fs).2 := by
        unfold Concurrent.step
        rw [hb]
        simp [stepJob]
      have h2 : (Concurrent.step nd order root jobs s i).fs = (stepBuild nd (order i) root (s.pc i) s.fs).1 := by
        unfold Concurrent.step
        rw [hb]
        rfl
      have hq : ∀ j : Nat, jobs[j]? = some .query → (Concurrent.step nd order root jobs s i).pc j = s.pc j := by
        intro j hjq
        exact hpc j (by rintro rfl; rw [hb] at hjq; cases hjq)
      rw [h1, h2]
      intro hnw
      have hbuild := h.base.build
      have hearly := h.base.early
      have hmixed := h.mixed
      generalize s.fs = fs at hbuild hmixed hnw ⊢
      generalize s.pc i = pc at hbuild hmixed hearly hnw ⊢
      cases hbuild with
      | start =>
        exfalso
        apply hnw
        simp only [stepBuild, stepOpen_content hc]
        exact .inl (.inr ⟨_, rfl⟩)
      | reading hr =>
        exfalso
        apply hnw
        rcases stepRead_terminated (nd := nd) hc ht hr with ⟨r', e, h', _⟩ | e
        · simp only [stepBuild, e]
          exact .inl (.inr ⟨_, rfl⟩)
        · rw [← loadGraph_lines hc, hg] at e
          simp only [stepBuild, e]
          exact .inr ⟨_, rfl⟩
      | loaded =>
        unfold Content at hc
        simp only [stepBuild, createTruncate, hc]
        refine ⟨[], FS.set_self _ _ _, part_nil, fun j hjq => ?_⟩
        rw [hq j hjq]
        exact (hearly (.inr ⟨_, rfl⟩) j hjq).mix
      | @rewriting done rest hd =>
        obtain ⟨w, k1, k2, k3⟩ := hmixed (by rintro ((h | ⟨_, h⟩) | ⟨_, h⟩) <;> cases h)
        have ew : w = done.flatten := by
          unfold Content at k1
          rw [FS.set_self] at k1
          cases k1
          rfl
        subst ew
        cases rest with
        | nil =>
          simp only [stepBuild]
          exact ⟨_, k1, k2, fun j hjq => by rw [hq j hjq]; exact k3 j hjq⟩
        | cons t rest =>
          simp only [stepBuild]
          have e : writeAt (commandPath root) done.flatten.length t (fs0.set (commandPath root) (some (.file done.flatten))) =
              fs0.set (commandPath root) (some (.file (done.flatten ++ t))) := by
            unfold writeAt
            rw [FS.set_self]
            simp only
            rw [set_set]
            congr 3
            rw [List.take_length, Nat.sub_self, List.drop_eq_nil_of_le (by omega)]
            simp
          rw [e]
          refine ⟨_, FS.set_self _ _ _, ⟨done ++ [t], rest, by rw [← hd]; simp, by simp⟩, fun j hjq => ?_⟩
          rw [hq j hjq]
          exact (k3 j hjq).grow t
      | finished =>
        obtain ⟨w, k1, k2, k3⟩ := hmixed (by rintro ((h | ⟨_, h⟩) | ⟨_, h⟩) <;> cases h)
        exact ⟨w, k1, k2, fun j hjq => by rw [hq j hjq]; exact k3 j hjq⟩
    · have hq : job = .query := (hj i job e).resolve_left hib
      subst hq
      have hfs : (Concurrent.step nd order root jobs s i).fs = s.fs := by
        unfold Concurrent.step
        rw [e]
        exact stepQuery_fs nd root _ _
      have hp : (Concurrent.step nd order root jobs s i).pc i = (stepQuery nd root (s.pc i) s.fs).2 := by
        unfold Concurrent.step
        rw [e]
        simp [stepJob]
      intro hnw
      rw [hpc b (Ne.symm hib)] at hnw
      obtain ⟨w, k1, k2, k3⟩ := h.mixed hnw
      refine ⟨w, by rw [hfs]; exact k1, k2, fun j hjq => ?_⟩
      by_cases hji : j = i
      · subst hji
        rw [hp]
        exact (k3 j hjq).step k1 k2
      · rw [hpc j hji]
        exact k3 j hjq

theorem DuringInv.run {order : Nat → DirectedGraph → DirectedGraph} {root : FPath} {jobs : List Job} {b : Nat}
    {fs0 : FS} (hb : jobs[b]? = some .build)
    (hj : ∀ (j : Nat) (job : Job), jobs[j]? = some job → j = b ∨ job = .query) (hc : Content root fs0 c) (ht : NewlineTerminated c)
    (hg : loadGraph nd root fs0 = .done (.ok g)) (sched : List Nat) {s : Sys} (h : DuringInv nd root jobs b (order b g) fs0 c s) :
    DuringInv nd root jobs b (order b g) fs0 c (sched.foldl (Concurrent.step nd order root jobs) s) := by
  induction sched generalizing s with
  | nil => exact h
  | cons i sched ih => exact ih (h.step hb hj hc ht hg i)

/-- The answer of every query comes from the beginning of the old file and parts of the new one. -/
theorem during_answer {order : Nat → DirectedGraph → DirectedGraph} {root : FPath} {jobs : List Job} {b : Nat}
    {fs : FS} (hb : jobs[b]? = some .build)
    (hj : ∀ (j : Nat) (job : Job), jobs[j]? = some job → j = b ∨ job = .query) (hc : Content root fs c) (ht : NewlineTerminated c)
    (hg : loadGraph nd root fs = .done (.ok g)) (sched : List Nat) {i : Nat} (hi : jobs[i]? = some .query)
    {res : Run (Except LoadError DirectedGraph)} (hr : (Concurrent.run nd order root jobs sched fs).pc i = .answered res) :
    MixRes nd (order b g) c res := by
  have h0 : DuringInv nd root jobs b (order b g) fs c ⟨fs, fun _ => .start⟩ :=
    ⟨buildInv_init, fun h => absurd (.inl (.inl rfl)) h⟩
  have h1 := h0.run hb hj hc ht hg sched
  by_cases hn : NotWritten ((Concurrent.run nd order root jobs sched fs).pc b)
  · have h2 := h1.base.early hn i hi
    have h3 := h2.mix (g := order b g)
    change MixPc nd (order b g) c [] ((Concurrent.run nd order root jobs sched fs).pc i) at h3
    rw [hr] at h3
    cases h3 with
    | answered h => exact h
  · obtain ⟨w, _, _, h2⟩ := h1.mixed hn
    have h3 := h2 i hi
    change MixPc nd (order b g) c w ((Concurrent.run nd order root jobs sched fs).pc i) at h3
    rw [hr] at h3
    cases h3 with
    | answered h => exact h

/-! ### The lines of the new file from anywhere on -/

theorem showId_ne (v : VertexId) (x : Char) (hx : x ∈ showId v) : x ≠ 'A' ∧ x ≠ 'R' := by
  have h := showId_ascii v x hx
  constructor
  · rintro rfl; revert h; decide
  · rintro rfl; revert h; decide

/-- Only the first character of a line of gc-build is an `A`, and none is an `R`. -/
theorem line_tail {cmd : GraphCommand} (h : IsAdd cmd) {x : Char} (hx : x ∈ (Gcmd.commandIntoLine cmd).tail) : x ≠ 'A' ∧ x ≠ 'R' := by
  have hk1 : ∀ x ∈ ['d', 'd', 'V', 'e', 'r', 't', 'e', 'x', ' '], x ≠ 'A' ∧ x ≠ 'R' := by decide
  have hk2 : ∀ x ∈ ['d', 'd', 'E', 'd', 'g', 'e', ' '], x ≠ 'A' ∧ x ≠ 'R' := by decide
  cases cmd with
  | AddVertex v =>
    rcases List.mem_append.1 (show x ∈ ['d', 'd', 'V', 'e', 'r', 't', 'e', 'x', ' '] ++ showId v from hx) with hx | hx
    · exact hk1 x hx
    · exact showId_ne v x hx
  | AddEdge a b =>
    have : x ∈ ['d', 'd', 'E', 'd', 'g', 'e', ' '] ++ showId a ++ [' '] ++ showId b := hx
    simp only [List.mem_append, List.mem_singleton] at this
    rcases this with ((hx | hx) | rfl) | hx
    · exact hk2 x hx
    · exact showId_ne a x hx
    · decide
    · exact showId_ne b x hx
  | RemoveVertex v => exact h.elim
  | RemoveEdge a b => exact h.elim

theorem syntax_head {l : Text} {cmd : GraphCommand} (h : GcmdSyntax l cmd) : ∃ x, (x = 'A' ∨ x = 'R') ∧ x ∈ l := by
  cases h
  · exact ⟨'A', .inl rfl, by simp⟩
  · exact ⟨'R', .inr rfl, by simp⟩
  · exact ⟨'A', .inl rfl, by simp⟩
  · exact ⟨'R', .inr rfl, by simp⟩

theorem mem_stripCr {x : Char} {l : Text} (h : x ∈ stripCr l) : x ∈ l := by
  unfold stripCr at h
  split at h
  · exact (List.dropLast_subset _) h
  · exact h

/-- All lines that are commands are commands of the list. -/
def Own (nd : Char → Bool) (cs : List GraphCommand) (t : Text) : Prop :=
  ∀ l ∈ lines t, ∀ cmd, Gcmd.parseLine nd l = .done (.ok cmd) → cmd ∈ cs

theorem own_drop {cs : List GraphCommand} (hadd : ∀ x ∈ cs, IsAdd x) {L : List GraphCommand} (hL : ∀ x ∈ L, x ∈ cs) {t : Text}
    (ht : ∀ a, Own nd cs (t.drop a)) (a : Nat) : Own nd cs ((Gcmd.commandsText L ++ t).drop a) := by
  induction L generalizing a with
  | nil =>
    have : Gcmd.commandsText [] = [] := rfl
    rw [this, List.nil_append]
    exact ht a
  | cons x L ih =>
    have hx := hL x (by simp)
    have ih' := ih fun y hy => hL y (by simp [hy])
    rw [commandsText_cons, List.append_assoc, List.append_assoc, List.singleton_append]
    by_cases ha : a ≤ (Gcmd.commandIntoLine x).length
    · rw [List.drop_append_of_le_length ha]
      intro l hl cmd hcmd
      rw [lines_newline _ (fun y hy => (plain_commandIntoLine x).1 y (List.mem_of_mem_drop hy)), List.mem_cons] at hl
      rcases hl with rfl | hl
      · have hs := gcmd_parseLine_ok.1 hcmd
        rcases a with _ | a
        · rw [List.drop_zero, stripCr_plain (plain_commandIntoLine x)] at hs
          rw [hs.unique (gcmd_syntax_commandIntoLine x)]
          exact hx
        · exfalso
          obtain ⟨y, h1, h2⟩ := syntax_head hs
          have h3 := mem_stripCr h2
          rw [← List.drop_tail] at h3
          have := line_tail (hadd x hx) (List.mem_of_mem_drop h3)
          rcases h1 with rfl | rfl
          · exact this.1 rfl
          · exact this.2 rfl
      · have := ih' 0 l (by rwa [List.drop_zero]) cmd hcmd
        exact this
    · obtain ⟨n, rfl⟩ : ∃ n, a = (Gcmd.commandIntoLine x).length + (n + 1) := ⟨a - (Gcmd.commandIntoLine x).length - 1, by omega⟩
      rw [← List.drop_drop, List.drop_left, List.drop_succ_cons]
      exact ih' n

theorem own_piece {cs : List GraphCommand} (hadd : ∀ x ∈ cs, IsAdd x) {x : GraphCommand} (hx : x ∈ cs) {t : Text}
    (ht : t <+: Gcmd.commandIntoLine x) (h : t = Gcmd.commandIntoLine x ∨ ∀ caps, ¬ GcmdRegex nd t caps) (a : Nat) : Own nd cs (t.drop a) := by
  intro l hl cmd hcmd
  rw [lines_no_newline _ (fun y hy => (plain_commandIntoLine x).1 y (ht.subset (List.mem_of_mem_drop hy)))] at hl
  split at hl
  · cases hl
  · rw [List.mem_singleton] at hl
    subst hl
    have hs := gcmd_parseLine_ok.1 hcmd
    rcases a with _ | a
    · rw [List.drop_zero] at hs
      rcases h with rfl | h
      · rw [hs.unique (gcmd_syntax_commandIntoLine x)]
        exact hx
      · obtain ⟨caps, h1, _⟩ := hs.regex (nd := nd)
        exact absurd h1 (h caps)
    · exfalso
      obtain ⟨y, h1, h2⟩ := syntax_head hs
      have h3 : y ∈ (Gcmd.commandIntoLine x).drop (a + 1) := by
        obtain ⟨r, hr⟩ := ht
        rw [← hr]
        by_cases hle : a + 1 ≤ t.length
        · rw [List.drop_append_of_le_length hle]
          exact List.mem_append_left _ h2
        · rw [List.drop_eq_nil_of_le (by omega)] at h2
          cases h2
      rw [← List.drop_tail] at h3
      have := line_tail (hadd x hx) (List.mem_of_mem_drop h3)
      rcases h1 with rfl | rfl
      · exact this.1 rfl
      · exact this.2 rfl

theorem own_rest {t : Text} (h : RestText g t) : Own nd (GraphCommand.asCommands g) t := by
  obtain ⟨a, w, ⟨done, rest, h1, rfl⟩, rfl⟩ := h
  have hadd := isAdd_asCommands g
  have hnil : ∀ a, Own nd (GraphCommand.asCommands g) (([] : Text).drop a) := by
    intro a l hl
    rw [List.drop_nil] at hl
    cases hl
  rcases cutText_saveWrites nd g h1 with ⟨n, h2⟩ | h2
  · generalize done.flatten = w at h2 ⊢
    cases h2 with
    | whole h3 =>
      have := own_drop (nd := nd) hadd (L := (GraphCommand.asCommands g).take n) (fun x hx => List.mem_of_mem_take hx) hnil a
      rwa [List.append_nil] at this
    | @«open» n x h3 =>
      exact own_drop hadd (fun x hx => List.mem_of_mem_take hx)
        (own_piece hadd (List.mem_of_getElem? h3) (List.prefix_refl _) (.inl rfl)) a
  · generalize done.flatten = w at h2 ⊢
    cases h2 with
    | @mk n x t h3 h4 h5 h6 =>
      exact own_drop hadd (fun x hx => List.mem_of_mem_take hx) (own_piece hadd (List.mem_of_getElem? h3) h5 (.inr h6)) a

/-! ### Reading it -/

theorem ReadsAs.split {parse : Text → Run (Except Text GraphCommand)} {a b : List Text} {cs : List GraphCommand} (h : ReadsAs parse (a ++ b) cs) :
    ∃ cs1 cs2, cs = cs1 ++ cs2 ∧ ReadsAs parse a cs1 ∧ ReadsAs parse b cs2 := by
  induction a generalizing cs with
  | nil => exact ⟨[], cs, rfl, .nil, h⟩
  | cons l a ih =>
    rw [List.cons_append] at h
    cases h with
    | skip h1 h2 =>
      obtain ⟨cs1, cs2, rfl, h3, h4⟩ := ih h2
      exact ⟨cs1, cs2, rfl, .skip h1 h3, h4⟩
    | @cons _ _ x _ h1 h2 h3 =>
      obtain ⟨cs1, cs2, rfl, h4, h5⟩ := ih h3
      exact ⟨x :: cs1, cs2, rfl, .cons h1 h2 h4, h5⟩

theorem ReadsAs.det {parse : Text → Run (Except Text GraphCommand)} {a : List Text} {cs cs' : List GraphCommand} (h : ReadsAs parse a cs)
    (h' : ReadsAs parse a cs') : cs = cs' := by
  induction h generalizing cs' with
  | nil => cases h'; rfl
  | skip h1 _ ih =>
    cases h' with
    | skip _ h3 => exact ih h3
    | cons h2 _ _ => exact absurd h2 h1
  | cons h1 h2 _ ih =>
    cases h' with
    | skip h3 _ => exact absurd h1 h3
    | cons _ h4 h5 =>
      rw [h2] at h4
      cases h4
      rw [ih h5]

theorem ReadsAs.own {cs own : List GraphCommand} {ls : List Text} (h : ReadsAs (Gcmd.parseLine nd) ls cs)
    (ho : ∀ l ∈ ls, ∀ cmd, Gcmd.parseLine nd l = .done (.ok cmd) → cmd ∈ own) : ∀ x ∈ cs, x ∈ own := by
  induction h with
  | nil => simp
  | skip _ _ ih => exact ih fun l hl => ho l (by simp [hl])
  | cons _ h2 _ ih =>
    intro x hx
    rcases List.mem_cons.1 hx with rfl | hx
    · exact ho _ (by simp) _ h2
    · exact ih (fun l hl => ho l (by simp [hl])) x hx

/-- The complete lines of a text, and the rest. -/
theorem split_lines (t : Text) : ∃ a x : Text, t = a ++ x ∧ NewlineTerminated a ∧ ∀ y ∈ x, y ≠ '\n' := by
  induction t using List.reverseRecOn with
  | nil => exact ⟨[], [], rfl, .inl rfl, by simp⟩
  | append_singleton t ch ih =>
    by_cases hch : ch = '\n'
    · subst hch
      exact ⟨t ++ ['\n'], [], by simp, .inr (by simp), by simp⟩
    · obtain ⟨a, x, rfl, h1, h2⟩ := ih
      refine ⟨a, x ++ [ch], by simp, h1, ?_⟩
      intro y hy
      rcases List.mem_append.1 hy with hy | hy
      · exact h2 y hy
      · rw [List.mem_singleton] at hy
        exact hy ▸ hch

/-- A text that begins within a line: one line, and then the lines from some place on. -/
theorem lines_mid (x s : Text) (hx : ∀ y ∈ x, y ≠ '\n') : lines (x ++ s) = [] ∨ ∃ z j, lines (x ++ s) = z :: lines (s.drop j) := by
  by_cases hs : '\n' ∈ s
  · obtain ⟨s1, s2, rfl, h1⟩ := List.eq_append_cons_of_mem hs
    refine .inr ⟨stripCr (x ++ s1), s1.length + 1, ?_⟩
    rw [← List.append_assoc, lines_newline, ← List.drop_drop, List.drop_left]
    · rfl
    · intro y hy
      rcases List.mem_append.1 hy with hy | hy
      · exact hx y hy
      · exact fun e => h1 (e ▸ hy)
  · rw [lines_no_newline]
    · split
      · exact .inl rfl
      · exact .inr ⟨x ++ s, s.length, by rw [List.drop_length]; rfl⟩
    · intro y hy
      rcases List.mem_append.1 hy with hy | hy
      · exact hx y hy
      · exact fun e => hs (e ▸ hy)

theorem loadLines_cases (nd : Char → Bool) (ls : List Text) :
    (∃ cs, ReadsAs (Gcmd.parseLine nd) ls cs ∧ loadLines nd ls = .done (.ok (GraphCommand.applyCommands cs .new))) ∨
    loadLines nd ls = .panicked ∨ ∃ e, loadLines nd ls = .done (.error (.parse e)) := by
  rcases readLoop_cases (gcmd_no_running nd) ls with ⟨cs, h⟩ | ⟨before, l, after, cs, rfl, h1, h2, h3⟩
  · exact .inl ⟨cs, h, loadLines_readsAs h⟩
  · right
    unfold loadLines
    rw [readLoop_append h1, readLoop_active h2]
    rcases h3 with h3 | ⟨msg, h3⟩
    · rw [h3]
      exact .inl rfl
    · rw [h3]
      exact .inr ⟨_, rfl⟩

/-- What a reader returns: a beginning of the old commands, at most one other command, and commands of the new file. -/
theorem MixRes.outcome {res : Run (Except LoadError DirectedGraph)} (h : MixRes nd g c res) {cs : List GraphCommand}
    (hcs : ReadsAs (Gcmd.parseLine nd) (lines c) cs) :
    res = .panicked ∨ (∃ e, res = .done (.error (.parse e))) ∨
    ∃ n extra tail, extra.length ≤ 1 ∧ (∀ x ∈ tail, x ∈ GraphCommand.asCommands g) ∧
      res = .done (.ok (GraphCommand.applyCommands (cs.take n ++ extra ++ tail) .new)) := by
  obtain ⟨p, ps, ⟨k, w, hw, rfl⟩, h2, rfl⟩ := h
  rcases loadLines_cases nd ((c.take k ++ w.drop k) :: ps |>.flatMap lines) with ⟨cs', h3, h4⟩ | h3 | h3
  · right
    right
    rw [h4]
    obtain ⟨A, x, h5, h6, h7⟩ := split_lines (c.take k)
    rw [List.flatMap_cons, h5, List.append_assoc, lines_append h6, List.append_assoc] at h3
    obtain ⟨cs1, cs2, rfl, h8, h9⟩ := ReadsAs.split h3
    have e1 : c = A ++ (x ++ c.drop k) := by
      rw [← List.append_assoc, ← h5, List.take_append_drop]
    rw [e1, lines_append h6] at hcs
    obtain ⟨d1, d2, rfl, k1, _⟩ := ReadsAs.split hcs
    obtain rfl := ReadsAs.det h8 k1
    obtain ⟨cs3, cs4, rfl, k2, k3⟩ := ReadsAs.split h9
    have hown4 : ∀ y ∈ cs4, y ∈ GraphCommand.asCommands g := by
      refine ReadsAs.own k3 ?_
      intro l hl
      obtain ⟨q, hq, hl⟩ := List.mem_flatMap.1 hl
      exact own_rest (h2 q hq) l hl
    rcases lines_mid x (w.drop k) h7 with e | ⟨z, j, e⟩
    · rw [e] at k2
      cases k2
      exact ⟨cs1.length, [], cs4, by simp, hown4, by simp⟩
    · rw [e, List.drop_drop] at k2
      have hr : ∀ l ∈ lines (w.drop (k + j)), ∀ cmd, Gcmd.parseLine nd l = .done (.ok cmd) → cmd ∈ GraphCommand.asCommands g :=
        own_rest ⟨k + j, w, hw, rfl⟩
      cases k2 with
      | skip _ k5 =>
        refine ⟨cs1.length, [], cs3 ++ cs4, by simp, ?_, by simp⟩
        intro y hy
        rcases List.mem_append.1 hy with hy | hy
        · exact ReadsAs.own k5 hr y hy
        · exact hown4 y hy
      | @cons _ _ y cs5 _ _ k5 =>
        refine ⟨cs1.length, [y], cs5 ++ cs4, by simp, ?_, by simp⟩
        intro y hy
        rcases List.mem_append.1 hy with hy | hy
        · exact ReadsAs.own k5 hr y hy
        · exact hown4 y hy
  · exact .inl h3
  · exact .inr (.inl h3)

/-! ### What the commands can add -/

/-- A command adds nothing beyond `U`. -/
def Bounded (U : SetGraph) : GraphCommand → Prop
  | .AddVertex v => U.V v
  | .AddEdge a b => U.V a ∧ U.V b ∧ U.E ⟨a, b⟩
  | _ => True

theorem run_bounded {U : SetGraph} {cs : List GraphCommand} (h : ∀ x ∈ cs, Bounded U x) {G : SetGraph}
    (hG : (∀ v, G.V v → U.V v) ∧ (∀ e, G.E e → U.E e)) : (∀ v, (G.run cs).V v → U.V v) ∧ (∀ e, (G.run cs).E e → U.E e) := by
  unfold SetGraph.run
  induction cs generalizing G with
  | nil => exact hG
  | cons x cs ih =>
    rw [List.foldl_cons]
    refine ih (fun y hy => h y (by simp [hy])) ?_
    have hx := h x (by simp)
    cases x with
    | AddVertex v => exact ⟨fun y hy => hy.elim (hG.1 y) (fun e => e ▸ hx), hG.2⟩
    | RemoveVertex v => exact ⟨fun y hy => hG.1 y hy.1, fun e he => hG.2 e he.1⟩
    | AddEdge a b =>
      exact ⟨fun y hy => hy.elim (hG.1 y) (fun e => e.elim (fun e => e ▸ hx.1) (fun e => e ▸ hx.2.1)),
        fun e he => he.elim (hG.2 e) (fun e => e ▸ hx.2.2)⟩
    | RemoveEdge a b => exact ⟨hG.1, fun e he => hG.2 e he.1⟩

theorem Bounded.mono {U U' : SetGraph} (h : (∀ v, U.V v → U'.V v) ∧ (∀ e, U.E e → U'.E e)) {x : GraphCommand} (hx : Bounded U x) :
    Bounded U' x := by
  cases x with
  | AddVertex v => exact h.1 _ hx
  | AddEdge a b => exact ⟨h.1 _ hx.1, h.1 _ hx.2.1, h.2 _ hx.2.2⟩
  | RemoveVertex v => trivial
  | RemoveEdge a b => trivial

theorem bounded_run {cs : List GraphCommand} (h : ∀ x ∈ cs, x.Adds) (G : SetGraph) : ∀ x ∈ cs, Bounded (G.run cs) x := by
  intro x hx
  obtain ⟨pre, post, rfl⟩ := List.append_of_mem hx
  have hpost := run_isAdd (cs := post) (fun y hy => by
    have := h y (by simp [hy])
    cases y <;> exact this) ((G.run pre).step x)
  have e : G.run (pre ++ x :: post) = ((G.run pre).step x).run post := by
    unfold SetGraph.run
    rw [List.foldl_append, List.foldl_cons]
  rw [e]
  refine Bounded.mono hpost ?_
  cases x with
  | AddVertex v => exact .inr rfl
  | AddEdge a b => exact ⟨.inr (.inl rfl), .inr (.inr rfl), .inr rfl⟩
  | RemoveVertex v => trivial
  | RemoveEdge a b => trivial

theorem bounded_part {g : DirectedGraph} (hw : WF g) {x : GraphCommand} (h : x.AddsPartOf g) : Bounded g.toSet x := by
  cases x with
  | AddVertex v => exact h
  | AddEdge a b => exact ⟨hw.src_mem (e := ⟨a, b⟩) h, hw.dst_mem (e := ⟨a, b⟩) h, h⟩
  | RemoveVertex v => trivial
  | RemoveEdge a b => trivial

end Concurrent
end GC
