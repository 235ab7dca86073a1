/-
Properties C09-C16: the gcmd and tgf file formats.

`nd` is the set of non-ASCII Unicode digits known to the `regex` crate; all theorems hold for every such set.
-/
import Verif.Proofs.Crash
namespace GC
open Text Format

/-! ### C09 -/

/-- C09: reading what `gcmd::save` wrote gives a graph with the same vertices and edges. -/
theorem C09_gcmd_round_trip (nd : Char → Bool) (g : DirectedGraph) (h : Built g) :
    ∃ g', Gcmd.read nd (Gcmd.save g) = .done (.ok g') ∧ Built g' ∧ SameGraph g' g := by
  refine ⟨GraphCommand.applyCommands (GraphCommand.asCommands g) .new, ?_, Built.new.applyCommands _, ?_⟩
  · apply read_of_readsAs
    rw [gcmd_save_eq, lines_commandsText]
    exact readsAs_commandLines nd _
  · rw [sameGraph_iff, toSet_applyCommands WF.new, toSet_new, run_asCommands g h.wf]

example : Gcmd.save (GraphCommand.applyCommands [.AddVertex 18446744073709551615, .AddEdge 1 20] .new) =
    "AddVertex 18446744073709551615\nAddVertex 1\nAddVertex 20\nAddEdge 1 20\n".toList := by decide +kernel

/-! ### C10 -/

/-- C10: reading what `tgf::save` wrote gives a graph with the same vertices and edges. -/
theorem C10_tgf_round_trip (nd : Char → Bool) (g : DirectedGraph) (h : Built g) :
    ∃ g', Tgf.read nd (Tgf.save g) = .done (.ok g') ∧ Built g' ∧ SameGraph g' g := by
  refine ⟨GraphCommand.applyCommands (GraphCommand.asCommands g) .new, ?_, Built.new.applyCommands _, ?_⟩
  · apply read_of_readsAs
    have := tgf_readsAs nd (GraphCommand.asCommands g) (by
      intro c hc
      rw [asCommands_eq, List.mem_append, List.mem_map, List.mem_map] at hc
      rcases hc with ⟨v, _, rfl⟩ | ⟨e, _, rfl⟩
      · exact .inl ⟨v, rfl⟩
      · exact .inr ⟨_, _, rfl⟩)
    rw [tgf_save_eq, lines_flatMap this.2]
    exact this.1
  · rw [sameGraph_iff, toSet_applyCommands WF.new, toSet_new, run_asCommands g h.wf]

example : Tgf.save (GraphCommand.applyCommands [.AddVertex 7, .AddEdge 1 20] .new) =
    "7\n1\n20\n1 20\n".toList := by decide +kernel

/-! ### C11 -/

/-- C11: the line written for a command parses back to that command. -/
theorem C11_line_round_trip (nd : Char → Bool) (c : GraphCommand) :
    Gcmd.parseLine nd (Gcmd.commandIntoLine c) = .done (.ok c) :=
  gcmd_parseLine_ok.2 (gcmd_syntax_commandIntoLine c)

/-- C11: different commands are written as different lines. -/
theorem C11_lines_injective (c d : GraphCommand) (h : Gcmd.commandIntoLine c = Gcmd.commandIntoLine d) : c = d := by
  have h1 := C11_line_round_trip (fun _ => false) c
  rw [h, C11_line_round_trip] at h1
  cases h1
  rfl

/-- C11: a line is accepted, with a given meaning, exactly when the documented grammar says so. -/
theorem C11_accepts_exactly_the_grammar (nd : Char → Bool) (line : Text) (c : GraphCommand) :
    Gcmd.parseLine nd line = .done (.ok c) ↔ GcmdSyntax line c := gcmd_parseLine_ok

/-- The keywords of the grammar. -/
example : (Gcmd.kwAddVertex, Gcmd.kwRemoveVertex, Gcmd.kwAddEdge, Gcmd.kwRemoveEdge) =
    ("AddVertex ".toList, "RemoveVertex ".toList, "AddEdge ".toList, "RemoveEdge ".toList) := by decide +kernel

example : GcmdSyntax "AddEdge 007   12".toList (.AddEdge 7 12) := by
  have h7 : Numeral ['0', '0', '7'] 7 := numeral_iff.2 ⟨by simp, by decide, by decide⟩
  have h12 : Numeral ['1', '2'] 12 := numeral_iff.2 ⟨by simp, by decide, by decide⟩
  exact .addEdge (d1 := ['0', '0', '7']) (w := [' ', ' ', ' ']) (d2 := ['1', '2']) (a := 7) (b := 12) h7
    ⟨by simp, by decide⟩ h12

/-! ### C12 -/

/-- C12: splitting a file into lines: any list of lines, each terminated by a line feed or by carriage return + line feed,
the last one possibly unterminated. -/
theorem C12_line_splitting (ls : List Text) (last : Text) (ends : Text → Text)
    (hends : ∀ l, ends l = ['\n'] ∨ ends l = ['\r', '\n'])
    (h : ∀ l ∈ ls, PlainLine l) (hlast : ∀ c ∈ last, c ≠ '\n') :
    lines ((ls.flatMap fun l => l ++ ends l) ++ last) = ls ++ (if last = [] then [] else [last]) := by
  induction ls with
  | nil =>
    simp only [List.flatMap_nil, List.nil_append]
    rw [lines_no_newline last hlast]
    cases last <;> simp
  | cons l ls ih =>
    have hl := h l (by simp)
    have ih := ih fun x hx => h x (by simp [hx])
    simp only [List.flatMap_cons, List.append_assoc, List.cons_append]
    rcases hends l with e | e <;> rw [e]
    · have := lines_newline l hl.1 ((ls.flatMap fun l => l ++ ends l) ++ last)
      simp only [List.singleton_append]
      rw [this, stripCr_plain hl, ih]
    · have := lines_newline (l ++ ['\r']) (by
        intro c hc
        rcases List.mem_append.1 hc with hc | hc
        · exact hl.1 c hc
        · simp at hc; subst hc; decide) ((ls.flatMap fun l => l ++ ends l) ++ last)
      simp only [List.append_assoc, List.cons_append, List.nil_append] at this ⊢
      rw [this, stripCr_crlf, ih]

open Classical in
/-- C12: a file is read as the meanings of its active lines, in order. -/
theorem C12_reads_active_lines_in_order (nd : Char → Bool) (content : Text) (cs : List GraphCommand) :
    Gcmd.readAsCommands nd content = .done (.ok cs) ↔
      List.Forall₂ GcmdSyntax ((lines content).filter fun l => decide (ActiveLine l)) cs := by
  unfold Gcmd.readAsCommands
  rw [readAsCommands_ok_iff (gcmd_no_running nd)]
  generalize lines content = ls
  constructor
  · intro h
    induction h with
    | nil => exact .nil
    | @skip l ls cs hl _ ih => rwa [List.filter_cons_of_neg (by simpa using hl)]
    | @cons l ls c cs hl hp _ ih =>
      rw [List.filter_cons_of_pos (by simpa using hl)]
      exact .cons (gcmd_parseLine_ok.1 hp) ih
  · intro h
    induction ls generalizing cs with
    | nil => cases h; exact .nil
    | cons l ls ih =>
      by_cases hl : ActiveLine l
      · rw [List.filter_cons_of_pos (by simpa using hl)] at h
        cases h with
        | cons hc h => exact .cons hl (gcmd_parseLine_ok.2 hc) (ih _ h)
      · rw [List.filter_cons_of_neg (by simpa using hl)] at h
        exact .skip hl (ih _ h)

/-- C12: an error names the (1-based) number and the text of the first active line that is not a command; all active lines
before it are commands. -/
theorem C12_error_locates_first_bad_line (nd : Char → Bool) (content : Text) (n : Nat) (msg : Text)
    (h : Gcmd.readAsCommands nd content = .done (.error (.atLine n msg))) :
    ∃ i, n = i + 1 ∧ (lines content)[i]? = some msg ∧ ActiveLine msg ∧ (∀ c, ¬ GcmdSyntax msg c) ∧
      ∀ j l, j < i → (lines content)[j]? = some l → ActiveLine l → ∃ c, GcmdSyntax l c := by
  have hgood : ∀ {ls : List Text} {cs}, ReadsAs (Gcmd.parseLine nd) ls cs → ∀ l ∈ ls, ActiveLine l → ∃ c, GcmdSyntax l c := by
    intro ls cs hr
    induction hr with
    | nil => simp
    | skip hn _ ih =>
      intro l hl ha
      rcases List.mem_cons.1 hl with rfl | hl
      · exact absurd ha hn
      · exact ih l hl ha
    | cons _ hp _ ih =>
      intro l hl ha
      rcases List.mem_cons.1 hl with rfl | hl
      · exact ⟨_, gcmd_parseLine_ok.1 hp⟩
      · exact ih l hl ha
  rcases readLoop_cases (gcmd_no_running nd) (lines content) with ⟨cs, hr⟩ | ⟨b, l, a, cs, h1, h2, h3, h4⟩
  · have := readAsCommands_of_readsAs hr
    unfold Gcmd.readAsCommands at h
    rw [h] at this
    cases this
  · have hbad := readAsCommands_bad h1 h2 h3
    unfold Gcmd.readAsCommands at h
    rcases h4 with h4 | ⟨m, h4⟩
    · rw [hbad.1 h4] at h; cases h
    · rw [hbad.2 m h4] at h
      cases h
      obtain ⟨rfl, hno⟩ := gcmd_parseLine_error.1 h4
      refine ⟨b.length, rfl, ?_, h3, ?_, ?_⟩
      · rw [h1]; simp
      · intro c hc
        obtain ⟨caps, hcaps, _⟩ := hc.regex (nd := nd)
        exact hno _ hcaps
      · intro j l' hj hl' ha
        rw [h1, List.getElem?_append_left hj] at hl'
        exact hgood h2 l' (List.mem_of_getElem? hl') ha

/-- C12: conversely, if some active line is not a command then reading does not succeed. -/
theorem C12_bad_line_is_reported (nd : Char → Bool) (content : Text) (l : Text) (hl : l ∈ lines content) (ha : ActiveLine l)
    (hbad : ∀ c, ¬ GcmdSyntax l c) : ∀ cs, Gcmd.readAsCommands nd content ≠ .done (.ok cs) := by
  intro cs hc
  unfold Gcmd.readAsCommands at hc
  rw [readAsCommands_ok_iff (gcmd_no_running nd)] at hc
  generalize lines content = ls at *
  induction hc with
  | nil => cases hl
  | skip hn _ ih =>
    rcases List.mem_cons.1 hl with rfl | hl
    · exact hn ha
    · exact ih hl
  | cons _ hp _ ih =>
    rcases List.mem_cons.1 hl with rfl | hl
    · exact hbad _ (gcmd_parseLine_ok.1 hp)
    · exact ih hl

example : Gcmd.readAsCommands (fun _ => false) "AddEdge 1 2\r\n  # note\n\nRemoveVertex 1".toList =
    .done (.ok [.AddEdge 1 2, .RemoveVertex 1]) := by rfl
example : Gcmd.readAsCommands (fun _ => false) "AddEdge 1 2\n\n# c\nAddEdge 1\nnonsense".toList =
    .done (.error (.atLine 4 "AddEdge 1".toList)) := by rfl

/-! ### C13 -/

/-- C13 (partial): exactly which files make `gcmd::read_as_commands` panic: some line has the shape of a command but one of its
ids is not a `u64` literal, and all active lines before it are commands. Missing: the claim that this never happens, which is false
(`C13_counterexample`). -/
theorem C13_panics_exactly_partial (nd : Char → Bool) (content : Text) :
    Gcmd.readAsCommands nd content = .panicked ↔
      ∃ (i : Nat) (l : Text) (caps : List Text), (lines content)[i]? = some l ∧ GcmdRegex nd l caps ∧ (∃ d ∈ caps, ¬ IsU64 d) ∧
        ∀ j l', j < i → (lines content)[j]? = some l' → ActiveLine l' → ∃ c, GcmdSyntax l' c := by
  unfold Gcmd.readAsCommands
  have hgood : ∀ {ls : List Text} {cs}, ReadsAs (Gcmd.parseLine nd) ls cs → ∀ l ∈ ls, ActiveLine l → ∃ c, GcmdSyntax l c := by
    intro ls cs hr
    induction hr with
    | nil => simp
    | skip hn _ ih =>
      intro l hl ha
      rcases List.mem_cons.1 hl with rfl | hl
      · exact absurd ha hn
      · exact ih l hl ha
    | cons _ hp _ ih =>
      intro l hl ha
      rcases List.mem_cons.1 hl with rfl | hl
      · exact ⟨_, gcmd_parseLine_ok.1 hp⟩
      · exact ih l hl ha
  have hpan : ∀ {l : Text} {caps : List Text}, GcmdRegex nd l caps → (∃ d ∈ caps, ¬ IsU64 d) → ∀ c, ¬ GcmdSyntax l c := by
    rintro l caps h1 ⟨d, hd, hn⟩ c hc
    obtain ⟨caps', h2, h3⟩ := hc.regex (nd := nd)
    rw [h2.unique h1] at h3
    exact hn (h3 d hd)
  rcases readLoop_cases (gcmd_no_running nd) (lines content) with ⟨cs, hr⟩ | ⟨b, l, a, cs, h1, h2, h3, h4⟩
  · rw [readAsCommands_of_readsAs hr]
    refine ⟨fun h => (by cases h), ?_⟩
    rintro ⟨i, l, caps, hi, hc, hd, _⟩
    obtain ⟨c, hs⟩ := hgood hr l (List.mem_of_getElem? hi) hc.active
    exact absurd hs (hpan hc hd c)
  · have hbad := readAsCommands_bad h1 h2 h3
    constructor
    · intro h
      rcases h4 with h4 | ⟨m, h4⟩
      · obtain ⟨caps, hc, hd⟩ := gcmd_parseLine_panicked.1 h4
        refine ⟨b.length, l, caps, by rw [h1]; simp, hc, hd, ?_⟩
        intro j l' hj hl' ha
        rw [h1, List.getElem?_append_left hj] at hl'
        exact hgood h2 l' (List.mem_of_getElem? hl') ha
      · rw [hbad.2 m h4] at h; cases h
    · rintro ⟨i, l', caps, hi, hc, hd, hbefore⟩
      have hnl : ∀ c, ¬ GcmdSyntax l c := by
        intro c hs
        have := gcmd_parseLine_ok (nd := nd).2 hs
        rcases h4 with h4 | ⟨m, h4⟩ <;> rw [h4] at this <;> cases this
      have hib : i = b.length := by
        rcases Nat.lt_trichotomy i b.length with hlt | heq | hgt
        · rw [h1, List.getElem?_append_left hlt] at hi
          obtain ⟨c, hs⟩ := hgood h2 l' (List.mem_of_getElem? hi) hc.active
          exact absurd hs (hpan hc hd c)
        · exact heq
        · obtain ⟨c, hs⟩ := hbefore b.length l hgt (by rw [h1]; simp) h3
          exact absurd hs (hnl c)
      subst hib
      rw [h1] at hi
      simp at hi
      subst hi
      exact hbad.1 (gcmd_parseLine_panicked.2 ⟨caps, hc, hd⟩)

/-- C13 (partial): a file whose digits are ASCII and whose ids are below 2^64 is read without panic: in particular everything the
tools write. -/
theorem C13_own_files_do_not_panic_partial (nd : Char → Bool) (cs : List GraphCommand) :
    Gcmd.readAsCommands nd (Gcmd.commandsText cs) = .done (.ok cs) := by
  apply readAsCommands_of_readsAs
  rw [lines_commandsText]
  exact readsAs_commandLines nd cs

/-- C13 is false: ids of 2^64 and above panic in both formats, and so does every non-ASCII digit known to the regex crate
(here U+0663, ARABIC-INDIC DIGIT THREE). -/
theorem C13_counterexample :
    (∀ nd, Gcmd.readAsCommands nd "AddVertex 18446744073709551616".toList = .panicked) ∧
    (∀ nd, Tgf.readAsCommands nd "18446744073709551616 label".toList = .panicked) ∧
    (∀ nd : Char → Bool, nd (Char.ofNat 0x663) = true →
      Gcmd.readAsCommands nd ("AddVertex ".toList ++ [Char.ofNat 0x663]) = .panicked) := by
  refine ⟨fun nd => rfl, fun nd => rfl, fun nd h => ?_⟩
  unfold Gcmd.readAsCommands Format.readAsCommands
  have hl : lines ("AddVertex ".toList ++ [Char.ofNat 0x663]) = [['A', 'd', 'd', 'V', 'e', 'r', 't', 'e', 'x', ' '] ++ [Char.ofNat 0x663]] := by rfl
  rw [hl, readLoop_active (not_comment_of_head (c := 'A') rfl (by decide) (by decide))]
  rw [gcmd_parseLine_panicked.2 ⟨[[Char.ofNat 0x663]], .addVertex ⟨by simp, ?_⟩, [Char.ofNat 0x663], by simp, ?_⟩]
  · rfl
  · intro c hc
    simp only [List.mem_singleton] at hc
    subst hc
    unfold isDigit
    rw [h]
    decide
  · rintro ⟨n, _, hn⟩
    have := hn.ascii (Char.ofNat 0x663) (by simp)
    exact absurd this (by decide)

/-! ### C14 -/

/-- C14: appending commands to a newline terminated file extends the list of stored commands, for every existing content. -/
theorem C14_append_extends (nd : Char → Bool) (content : Text) (base cs : List GraphCommand) (ht : NewlineTerminated content)
    (h : Gcmd.readAsCommands nd content = .done (.ok base)) :
    Gcmd.readAsCommands nd (Gcmd.addCommands content cs) = .done (.ok (base ++ cs)) ∧
    NewlineTerminated (Gcmd.addCommands content cs) := by
  constructor
  · apply readAsCommands_of_readsAs
    unfold Gcmd.addCommands
    rw [lines_append ht, lines_commandsText]
    exact ((readAsCommands_ok_iff (gcmd_no_running nd)).1 h).append (readsAs_commandLines nd cs)
  · exact newlineTerminated_append ht (terminated_commandsText cs)

/-- C14: the stored graph afterwards is the previous graph with the commands applied. -/
theorem C14_append_applies (nd : Char → Bool) (content : Text) (g : DirectedGraph) (cs : List GraphCommand)
    (ht : NewlineTerminated content) (h : Gcmd.read nd content = .done (.ok g)) :
    Gcmd.read nd (Gcmd.addCommands content cs) = .done (.ok (GraphCommand.applyCommands cs g)) := by
  unfold Gcmd.read Format.read at h ⊢
  obtain ⟨r, hr, h⟩ := Run.bind_eq_done.1 h
  cases r with
  | error e => cases h
  | ok base =>
    have := (C14_append_extends nd content base cs ht hr).1
    unfold Gcmd.readAsCommands at this
    rw [this]
    simp only [Run.done.injEq, Except.ok.injEq] at h
    subst h
    simp [GraphCommand.applyCommands, List.foldl_append]

/-- C14: the files produced by any history of saving and appending are newline terminated, so the hypothesis always holds for files
written by the tools alone. -/
theorem C14_saved_files_terminated (g : DirectedGraph) : NewlineTerminated (Gcmd.save g) ∧ NewlineTerminated [] := by
  refine ⟨?_, .inl rfl⟩
  rw [gcmd_save_eq]
  exact terminated_commandsText _

/-- C14: the newline is needed: appending to a file without final newline destroys the stored graph. -/
theorem C14_newline_needed (nd : Char → Bool) :
    Gcmd.readAsCommands nd "AddVertex 1".toList = .done (.ok [.AddVertex 1]) ∧
    Gcmd.readAsCommands nd (Gcmd.addCommands "AddVertex 1".toList [.AddVertex 2]) =
      .done (.error (.atLine 1 "AddVertex 1AddVertex 2".toList)) := by
  constructor <;> rfl

example : Gcmd.addCommands "AddEdge 1 2\n".toList [.RemoveVertex 2, .AddEdge 3 3] =
    "AddEdge 1 2\nRemoveVertex 2\nAddEdge 3 3\n".toList := by decide +kernel

/-! ### C15 -/

/-- C15 (partial): all possible outcomes of a crash while appending. Any prefix of the appended text may have reached the file. Then
the file is read as the old commands and a prefix of the new ones, or the next new command with the digits of its last
id cut off in addition, or it cannot be read any more (the error names the incomplete line). It never panics.
Missing: the claim excludes the second and third outcome, which do occur (`C15_counterexample`). -/
theorem C15_crash_outcomes_partial (nd : Char → Bool) (content p : Text) (base cs : List GraphCommand)
    (ht : NewlineTerminated content) (h : Gcmd.readAsCommands nd content = .done (.ok base))
    (hp : p <+: Gcmd.commandsText cs) :
    ∃ k, k ≤ cs.length ∧
      (Gcmd.readAsCommands nd (content ++ p) = .done (.ok (base ++ cs.take k)) ∨
      (∃ c c', cs[k]? = some c ∧ Truncated c c' ∧
        Gcmd.readAsCommands nd (content ++ p) = .done (.ok (base ++ cs.take k ++ [c']))) ∨
      (∃ c l, cs[k]? = some c ∧ l <+: Gcmd.commandIntoLine c ∧
        Gcmd.readAsCommands nd (content ++ p) = .done (.error (.atLine ((lines content).length + k + 1) l)))) := by
  obtain ⟨k, t, rfl, hk, hor⟩ := prefix_commandsText hp
  refine ⟨k, hk, ?_⟩
  have hbase := (readAsCommands_ok_iff (gcmd_no_running nd)).1 h
  have hread := hbase.append (readsAs_commandLines nd (cs.take k))
  have hterm := newlineTerminated_append ht (terminated_commandsText (cs.take k))
  have hl : lines (content ++ (Gcmd.commandsText (cs.take k) ++ t)) =
      (lines content ++ (cs.take k).map Gcmd.commandIntoLine) ++ lines t := by
    rw [← List.append_assoc, lines_append hterm, lines_append ht, lines_commandsText]
  rcases hor with rfl | ⟨c, hc, hne, hpre⟩
  · left
    apply readAsCommands_of_readsAs
    rw [hl]
    simpa [lines, linesAux] using hread
  · have hlt : lines t = [t] := by
      rw [lines_no_newline t (fun x hx => (plain_commandIntoLine c).1 x (hpre.subset hx))]
      cases t with
      | nil => exact absurd rfl hne
      | cons => rfl
    rw [hlt] at hl
    right
    rcases parse_piece nd hpre with ⟨c', htr, hsyn⟩ | hno
    · left
      refine ⟨c, c', hc, htr, ?_⟩
      apply readAsCommands_of_readsAs
      rw [hl]
      exact hread.append (.cons hsyn.active (gcmd_parseLine_ok.2 hsyn) .nil)
    · right
      refine ⟨c, t, hc, hpre, ?_⟩
      have := (readAsCommands_bad (content := content ++ (Gcmd.commandsText (cs.take k) ++ t)) hl hread
        (active_piece hpre hne)).2 t (gcmd_parseLine_error.2 ⟨rfl, hno⟩)
      unfold Gcmd.readAsCommands
      rw [this]
      congr 3
      simp only [List.length_append, List.length_map, List.length_take]
      omega

/-- C15 (partial): a crash between two lines leaves exactly a prefix of the commands. -/
theorem C15_crash_at_line_boundary_partial (nd : Char → Bool) (content : Text) (base cs : List GraphCommand) (k : Nat)
    (ht : NewlineTerminated content) (h : Gcmd.readAsCommands nd content = .done (.ok base)) :
    Gcmd.readAsCommands nd (content ++ Gcmd.commandsText (cs.take k)) = .done (.ok (base ++ cs.take k)) :=
  (C14_append_extends nd content base (cs.take k) ht h).1

/-- C15 is false: a crash in the middle of `AddVertex 12` can leave vertex 1, which nobody added; a crash after the keyword makes the
file unreadable. -/
theorem C15_counterexample (nd : Char → Bool) :
    (∃ p, p <+: Gcmd.commandsText [.AddVertex 12] ∧ Gcmd.readAsCommands nd ([] ++ p) = .done (.ok [.AddVertex 1])) ∧
    (∃ p, p <+: Gcmd.commandsText [.AddVertex 12] ∧
      Gcmd.readAsCommands nd ([] ++ p) = .done (.error (.atLine 1 "AddVertex ".toList))) := by
  refine ⟨⟨"AddVertex 1".toList, ⟨"2\n".toList, by decide +kernel⟩, rfl⟩, ⟨"AddVertex ".toList, ⟨"12\n".toList, by decide +kernel⟩, rfl⟩⟩

/-! ### C16 -/

/-- C16 (partial): an id followed by a label that does not look like a second id is read as that vertex.
Missing: labels beginning with blanks and a digit, for which the claim is false (`C16_counterexample`). -/
theorem C16_vertex_label_ignored_partial (nd : Char → Bool) (d label : Text) (v : VertexId) (hd : DenotesId d v)
    (hl : IsLabel nd label) (hn : ¬ LooksLikeSecondId nd label) :
    Tgf.parseLine nd (d ++ label) = .done (.ok (.AddVertex v)) := tgf_parseLine_vertex hd hl hn

/-- C16: two ids followed by a label (any text that does not continue the second number) are read as that edge. -/
theorem C16_edge_label_ignored (nd : Char → Bool) (d1 w d2 label : Text) (a b : VertexId) (h1 : DenotesId d1 a) (hw : Blank w)
    (h2 : DenotesId d2 b) (hl : IsLabel nd label) :
    Tgf.parseLine nd (d1 ++ w ++ d2 ++ label) = .done (.ok (.AddEdge a b)) := tgf_parseLine_edge h1 hw h2 hl

/-- C16: every other line is an error: TGF lines must begin with a digit. -/
theorem C16_no_id_is_error (nd : Char → Bool) (line : Text) (h : ∀ c, line.head? = some c → isDigit nd c = false) :
    Tgf.parseLine nd line = .done (.error line) := by
  have h0 : ∀ d r : Text, Digits nd d → line = d ++ r → False := by
    rintro d r hd rfl
    cases d with
    | nil => exact hd.1 rfl
    | cons c d => exact absurd (hd.2 c (by simp)) (by rw [h c rfl]; simp)
  unfold Tgf.parseLine
  cases h1 : Tgf.matchEdge nd line with
  | some p =>
    obtain ⟨w, rest, he, hd, _⟩ := (tgf_matchEdge_iff (d1 := p.1) (d2 := p.2)).1 h1
    exact (h0 p.1 _ hd (by rw [he, List.append_assoc, List.append_assoc])).elim
  | none =>
    cases h2 : Tgf.matchVertex nd line with
    | some d =>
      obtain ⟨rest, he, hd, _⟩ := tgf_matchVertex_iff.1 h2
      exact (h0 d _ hd he).elim
    | none => rfl

/-- C16: a line with an id and a label is read as that vertex exactly if the label does not look like a second id. -/
theorem C16_vertex_label_exact (nd : Char → Bool) (d label : Text) (v : VertexId) (hd : DenotesId d v) (hl : IsLabel nd label) :
    Tgf.parseLine nd (d ++ label) = .done (.ok (.AddVertex v)) ↔ ¬ LooksLikeSecondId nd label := by
  refine ⟨?_, fun hn => tgf_parseLine_vertex hd hl hn⟩
  rintro h ⟨w, c, rest, he, hw, hc⟩
  subst he
  have hm : ∃ p, Tgf.matchEdge nd (d ++ (w ++ c :: rest)) = some p := by
    refine ⟨(d, c :: rest.takeWhile (isDigit nd)), tgf_matchEdge_iff.2
      ⟨w, rest.dropWhile (isDigit nd), by simp [List.takeWhile_append_dropWhile], Numeral.digits nd hd, hw, ⟨by simp, ?_⟩, ?_, ?_⟩⟩
    · intro x hx
      rcases List.mem_cons.1 hx with rfl | hx
      · exact hc
      · exact all_takeWhile _ _ x hx
    · intro x hx
      exact hl.1 x (by
        have := (List.dropWhile_sublist (isDigit nd)).subset hx
        simp [this])
    · exact fun x hx => head_dropWhile _ _ x hx
  obtain ⟨⟨d1, d2⟩, hm⟩ := hm
  unfold Tgf.parseLine at h
  rw [hm] at h
  simp only at h
  cases h1 : captureId d1 with
  | done a =>
    cases h2 : captureId d2 with
    | done b => rw [h1, h2] at h; simp [Run.bind] at h
    | panicked => rw [h1, h2] at h; simp [Run.bind] at h
    | running => rw [h1, h2] at h; simp [Run.bind] at h
  | panicked => rw [h1] at h; simp [Run.bind] at h
  | running => rw [h1] at h; simp [Run.bind] at h

example (nd : Char → Bool) : ¬ LooksLikeSecondId nd [] := by
  rintro ⟨w, c, rest, h, _⟩
  simp at h

/-- C16 is false: vertex 1 with label "2nd street" is read as the edge 1 → 2. -/
theorem C16_counterexample (nd : Char → Bool) :
    Tgf.parseLine nd "1 2nd street".toList = .done (.ok (.AddEdge 1 2)) := by
  have hn : IsLabel nd "nd street".toList := by
    refine ⟨by decide +kernel, ?_⟩
    intro c hc
    have : c = 'n' := by
      have : "nd street".toList.head? = some 'n' := by decide +kernel
      rw [this] at hc
      exact (Option.some.inj hc).symm
    subst this
    rw [isDigit_small (by decide)]
    decide
  have h1 : DenotesId ['1'] 1 := numeral_iff.2 ⟨by simp, by decide, by decide⟩
  have h2 : DenotesId ['2'] 2 := numeral_iff.2 ⟨by simp, by decide, by decide⟩
  exact tgf_parseLine_edge h1 blank_space h2 hn

/-- `C12_line_splitting`, `C12_bad_line_is_reported`, `C14_append_extends`, `C14_append_applies`, `C15_crash_outcomes_partial` and
`C15_crash_at_line_boundary_partial` for short files. -/
example (nd : Char → Bool) :
    lines ("AddEdge 1 2\r\nAddVertex 7\r\nRem".toList) = ["AddEdge 1 2".toList, "AddVertex 7".toList, "Rem".toList] ∧
    (∀ cs, Gcmd.readAsCommands (fun _ => false) "AddEdge 1 2\nAddEdge 3".toList ≠ .done (.ok cs)) ∧
    Gcmd.readAsCommands nd (Gcmd.addCommands "AddEdge 1 2\n".toList [.RemoveVertex 2]) = .done (.ok ([.AddEdge 1 2] ++ [.RemoveVertex 2])) ∧
    Gcmd.read nd (Gcmd.addCommands "AddEdge 1 2\n".toList [.RemoveVertex 2]) =
      .done (.ok (GraphCommand.applyCommands [.RemoveVertex 2] (GraphCommand.applyCommands [.AddEdge 1 2] .new))) ∧
    Gcmd.readAsCommands nd ("AddEdge 1 2\n".toList ++ Gcmd.commandsText [.AddVertex 3]) = .done (.ok [.AddEdge 1 2, .AddVertex 3]) ∧
    (∃ r, Gcmd.readAsCommands nd ("AddEdge 1 2\n".toList ++ "AddVertex 3\nAddVer".toList) = .done r) := by
  have ht : NewlineTerminated "AddEdge 1 2\n".toList := .inr (by decide)
  have h0 : Gcmd.readAsCommands nd "AddEdge 1 2\n".toList = .done (.ok [.AddEdge 1 2]) :=
    (C13_own_files_do_not_panic_partial nd [.AddEdge 1 2] :)
  refine ⟨?_, ?_, (C14_append_extends nd _ _ _ ht h0).1, C14_append_applies nd _ _ _ ht ?_,
    C15_crash_at_line_boundary_partial nd _ _ [.AddVertex 3, .AddVertex 45] 1 ht h0, ?_⟩
  · exact C12_line_splitting ["AddEdge 1 2".toList, "AddVertex 7".toList] "Rem".toList (fun _ => ['\r', '\n']) (fun _ => .inr rfl)
      (by simp only [PlainLine]; decide) (by decide)
  · refine C12_bad_line_is_reported _ _ "AddEdge 3".toList (by decide) ⟨by decide, ?_⟩ ?_
    · rintro ⟨w, rest, e, hw⟩
      have : '#' ∈ "AddEdge 3".toList := by rw [e]; simp
      exact absurd this (by decide)
    · intro c hc
      have e := (C11_accepts_exactly_the_grammar (fun _ => false) _ c).2 hc
      rw [show Gcmd.parseLine (fun _ => false) "AddEdge 3".toList = .done (.error "AddEdge 3".toList) by decide] at e
      cases e
  · unfold Gcmd.read Format.read
    rw [show Format.readAsCommands (Gcmd.parseLine nd) "AddEdge 1 2\n".toList = _ from h0]
    rfl
  · obtain ⟨k, _, h | ⟨c, c', _, _, h⟩ | ⟨c, l, _, _, h⟩⟩ :=
      C15_crash_outcomes_partial nd _ "AddVertex 3\nAddVer".toList _ [.AddVertex 3, .AddVertex 45] ht h0 ⟨"tex 45\n".toList, by decide⟩
    · exact ⟨_, h⟩
    · exact ⟨_, h⟩
    · exact ⟨_, h⟩

/-- `C16_edge_label_ignored` and `C16_vertex_label_exact` for the labels `flight` and `Paris`. -/
example : Tgf.parseLine (fun _ => false) ("12".toList ++ " ".toList ++ "7".toList ++ " flight".toList) = .done (.ok (.AddEdge 12 7)) ∧
    ¬ LooksLikeSecondId (fun _ => false) " Paris".toList :=
  ⟨C16_edge_label_ignored _ _ _ _ _ 12 7 (numeral_iff.2 ⟨by decide, by decide, by decide⟩) ⟨by decide, by simp [White]⟩ (numeral_iff.2 ⟨by decide, by decide, by decide⟩)
      ⟨by decide, by decide⟩,
    (C16_vertex_label_exact (fun _ => false) "12".toList " Paris".toList 12 (numeral_iff.2 ⟨by decide, by decide, by decide⟩) ⟨by decide, by decide⟩).1 (by decide)⟩

example (nd : Char → Bool) : Tgf.parseLine nd "12 Paris".toList = .done (.ok (.AddVertex 12)) := by
  have h1 : DenotesId ['1', '2'] 12 := numeral_iff.2 ⟨by simp, by decide, by decide⟩
  refine C16_vertex_label_ignored_partial nd ['1', '2'] " Paris".toList 12 h1 ⟨by decide +kernel, ?_⟩ ?_
  · intro c hc
    have h3 : " Paris".toList.head? = some ' ' := by decide +kernel
    rw [h3] at hc
    cases hc
    rw [isDigit_small (by decide)]
    decide
  · rintro ⟨w, c, rest, he, hw, hc⟩
    have e1 : " Paris".toList = [' '] ++ "Paris".toList := by decide +kernel
    have h4 := takeWhile_append_of_neg (p := isWhite) (a := w) (b := c :: rest) hw.isWhite
      (by intro x hx; simp at hx; subst hx; exact not_white_of_digit hc)
    have h5 : " Paris".toList.dropWhile isWhite = "Paris".toList := by decide +kernel
    rw [← he, h5] at h4
    have : c = 'P' := by
      have h6 : "Paris".toList.head? = some 'P' := by decide +kernel
      rw [h4.2] at h6
      exact Option.some.inj h6
    subst this
    rw [isDigit_small (by decide)] at hc
    exact absurd hc (by decide)

end GC
