/-
Properties C12, C13 and C16 for TGF files, line by line and as a whole.
-/
import Verif.Proofs.Tgf
import Verif.Proofs.GraphCommands
namespace GC
open Text Format

/-- C16: a TGF line is accepted, with a given meaning, exactly when it consists of one id and a label that does not look like a second
id, or of two ids and a label. -/
theorem C16_accepts_exactly (nd : Char → Bool) (line : Text) (c : GraphCommand) :
    Tgf.parseLine nd line = .done (.ok c) ↔ TgfSyntax nd line c := tgf_parseLine_ok

/-- C16: a TGF line has at most one meaning. -/
theorem C16_one_meaning (nd : Char → Bool) (line : Text) (c d : GraphCommand) (h1 : TgfSyntax nd line c) (h2 : TgfSyntax nd line d) :
    c = d := by
  have := h1.parse.symm.trans h2.parse
  cases this
  rfl

open Classical in
/-- C12 for TGF: a file is read as the meanings of its active lines, in order. The line `#` between the vertices and the edges is a
comment. -/
theorem C12_tgf_reads_active_lines_in_order (nd : Char → Bool) (content : Text) (cs : List GraphCommand) :
    Tgf.readAsCommands nd content = .done (.ok cs) ↔
      List.Forall₂ (TgfSyntax nd) ((lines content).filter fun l => decide (ActiveLine l)) cs := by
  unfold Tgf.readAsCommands
  rw [readAsCommands_ok_iff (tgf_no_running nd)]
  exact ReadsAs.iff_forall tgf_parseLine_ok _ _

/-- C12 for TGF: an error names the (1-based) number and the text of the first active line that is not a TGF line; all active lines
before it are. -/
theorem C12_tgf_error_locates_first_bad_line (nd : Char → Bool) (content : Text) (n : Nat) (msg : Text)
    (h : Tgf.readAsCommands nd content = .done (.error (.atLine n msg))) :
    ∃ i, n = i + 1 ∧ (lines content)[i]? = some msg ∧ ActiveLine msg ∧ (∀ c, ¬ TgfSyntax nd msg c) ∧
      ∀ j l, j < i → (lines content)[j]? = some l → ActiveLine l → ∃ c, TgfSyntax nd l c := by
  unfold Tgf.readAsCommands at h
  rcases readLoop_cases (tgf_no_running nd) (lines content) with ⟨cs, hr⟩ | ⟨b, l, a, cs, h1, h2, h3, h4⟩
  · have := readAsCommands_of_readsAs hr
    rw [h] at this
    cases this
  · have hbad := readAsCommands_bad h1 h2 h3
    rcases h4 with h4 | ⟨m, h4⟩
    · rw [hbad.1 h4] at h; cases h
    · rw [hbad.2 m h4] at h
      cases h
      obtain ⟨rfl, hno⟩ := tgf_parseLine_error.1 h4
      refine ⟨b.length, rfl, ?_, h3, ?_, ?_⟩
      · rw [h1]; simp
      · intro c hc
        obtain ⟨caps, hcaps, _⟩ := hc.shape
        exact hno _ hcaps
      · intro j l' hj hl' ha
        rw [h1, List.getElem?_append_left hj] at hl'
        exact h2.good tgf_parseLine_ok l' (List.mem_of_getElem? hl') ha

/-- C12 for TGF: conversely, if some active line is not a TGF line then reading does not succeed. -/
theorem C12_tgf_bad_line_is_reported (nd : Char → Bool) (content : Text) (l : Text) (hl : l ∈ lines content) (ha : ActiveLine l)
    (hbad : ∀ c, ¬ TgfSyntax nd l c) : ∀ cs, Tgf.readAsCommands nd content ≠ .done (.ok cs) := by
  intro cs hc
  unfold Tgf.readAsCommands at hc
  rw [readAsCommands_ok_iff (tgf_no_running nd)] at hc
  obtain ⟨c, h⟩ := hc.good tgf_parseLine_ok l hl ha
  exact hbad c h

/-- C13 (partial) for TGF: exactly which files make `tgf::read_as_commands` panic: some line has the shape of a TGF line but one of its
ids is not a `u64` literal, and all active lines before it are TGF lines. Missing: the claim that this never happens, which is false
(`C13_counterexample`). -/
theorem C13_tgf_panics_exactly_partial (nd : Char → Bool) (content : Text) :
    Tgf.readAsCommands nd content = .panicked ↔
      ∃ (i : Nat) (l : Text) (caps : List Text), (lines content)[i]? = some l ∧ TgfShape nd l caps ∧ (∃ d ∈ caps, ¬ IsU64 d) ∧
        ∀ j l', j < i → (lines content)[j]? = some l' → ActiveLine l' → ∃ c, TgfSyntax nd l' c := by
  unfold Tgf.readAsCommands
  have hpan : ∀ {l : Text} {caps : List Text}, TgfShape nd l caps → (∃ d ∈ caps, ¬ IsU64 d) → ∀ c, ¬ TgfSyntax nd l c := by
    rintro l caps h1 ⟨d, hd, hn⟩ c hc
    obtain ⟨caps', h2, h3⟩ := hc.shape
    rw [h2.unique h1] at h3
    exact hn (h3 d hd)
  rcases readLoop_cases (tgf_no_running nd) (lines content) with ⟨cs, hr⟩ | ⟨b, l, a, cs, h1, h2, h3, h4⟩
  · rw [readAsCommands_of_readsAs hr]
    refine ⟨fun h => (by cases h), ?_⟩
    rintro ⟨i, l, caps, hi, hc, hd, _⟩
    obtain ⟨c, hs⟩ := hr.good tgf_parseLine_ok l (List.mem_of_getElem? hi) hc.active
    exact absurd hs (hpan hc hd c)
  · have hbad := readAsCommands_bad h1 h2 h3
    constructor
    · intro h
      rcases h4 with h4 | ⟨m, h4⟩
      · obtain ⟨caps, hc, hd⟩ := tgf_parseLine_panicked.1 h4
        refine ⟨b.length, l, caps, by rw [h1]; simp, hc, hd, ?_⟩
        intro j l' hj hl' ha
        rw [h1, List.getElem?_append_left hj] at hl'
        exact h2.good tgf_parseLine_ok l' (List.mem_of_getElem? hl') ha
      · rw [hbad.2 m h4] at h; cases h
    · rintro ⟨i, l', caps, hi, hc, hd, hbefore⟩
      have hnl : ∀ c, ¬ TgfSyntax nd l c := by
        intro c hs
        have := hs.parse
        rcases h4 with h4 | ⟨m, h4⟩ <;> rw [h4] at this <;> cases this
      have hib : i = b.length := by
        rcases Nat.lt_trichotomy i b.length with hlt | heq | hgt
        · rw [h1, List.getElem?_append_left hlt] at hi
          obtain ⟨c, hs⟩ := h2.good tgf_parseLine_ok l' (List.mem_of_getElem? hi) hc.active
          exact absurd hs (hpan hc hd c)
        · exact heq
        · obtain ⟨c, hs⟩ := hbefore b.length l hgt (by rw [h1]; simp) h3
          exact absurd hs (hnl c)
      subst hib
      rw [h1] at hi
      simp at hi
      subst hi
      exact hbad.1 (tgf_parseLine_panicked.2 ⟨caps, hc, hd⟩)

/-- C16: the graph of a TGF file: its edges are those of the lines of two ids, its vertices are the ids of all lines. The order of the
lines does not matter, an edge may come before its vertices, and vertices need no line of their own. -/
theorem C16_graph_of_file (nd : Char → Bool) (content : Text) (g : DirectedGraph) (h : Tgf.read nd content = .done (.ok g)) :
    (∀ a b, g.containsEdge ⟨a, b⟩ = true ↔ ∃ l ∈ lines content, TgfSyntax nd l (.AddEdge a b)) ∧
    (∀ v, g.containsVertex v = true ↔ ∃ l ∈ lines content, TgfSyntax nd l (.AddVertex v) ∨
      ∃ u, TgfSyntax nd l (.AddEdge v u) ∨ TgfSyntax nd l (.AddEdge u v)) := by
  have hr : ∃ cs, Tgf.readAsCommands nd content = .done (.ok cs) ∧ g = GraphCommand.applyCommands cs .new := by
    unfold Tgf.read Format.read at h
    cases hc : Format.readAsCommands (Tgf.parseLine nd) content with
    | running => rw [hc] at h; cases h
    | panicked => rw [hc] at h; cases h
    | done r =>
      rw [hc] at h
      cases r with
      | error e => cases h
      | ok cs => cases h; exact ⟨cs, hc, rfl⟩
  obtain ⟨cs, hcs, rfl⟩ := hr
  unfold Tgf.readAsCommands at hcs
  rw [readAsCommands_ok_iff (tgf_no_running nd)] at hcs
  have hE : ∀ e, (GraphCommand.applyCommands cs .new).containsEdge e = true ↔ (SetGraph.empty.run cs).E e := fun e => by
    have := congrFun (congrArg SetGraph.E (toSet_applyCommands WF.new cs)) e
    rw [toSet_new] at this
    exact iff_of_eq this
  have hV : ∀ v, (GraphCommand.applyCommands cs .new).containsVertex v = true ↔ (SetGraph.empty.run cs).V v := fun v => by
    have := congrFun (congrArg SetGraph.V (toSet_applyCommands WF.new cs)) v
    rw [toSet_new] at this
    exact iff_of_eq this
  have key : ∀ {ls : List Text} {cs : List GraphCommand}, ReadsAs (Tgf.parseLine nd) ls cs → ∀ G : SetGraph,
      (∀ e, (G.run cs).E e ↔ G.E e ∨ ∃ l ∈ ls, TgfSyntax nd l (.AddEdge e.src e.dst)) ∧
      (∀ v, (G.run cs).V v ↔ G.V v ∨ ∃ l ∈ ls, TgfSyntax nd l (.AddVertex v) ∨
        ∃ u, TgfSyntax nd l (.AddEdge v u) ∨ TgfSyntax nd l (.AddEdge u v)) := by
    intro ls cs hr
    induction hr with
    | nil => intro G; simp [SetGraph.run]
    | @skip l ls cs hn _ ih =>
      intro G
      have hno : ∀ c, ¬ TgfSyntax nd l c := fun c hc => by
        obtain ⟨caps, hs, _⟩ := hc.shape
        exact hn hs.active
      simp only [List.mem_cons, exists_eq_or_imp, hno, false_or, or_false, exists_false]
      exact ih G
    | @cons l ls c cs _ hp _ ih =>
      intro G
      have hs := tgf_parseLine_ok.1 hp
      have honly : ∀ d, TgfSyntax nd l d ↔ d = c := fun d =>
        ⟨fun hd => by have := hd.parse.symm.trans hs.parse; cases this; rfl, fun e => e ▸ hs⟩
      obtain ⟨i1, i2⟩ := ih (G.step c)
      have hrun : G.run (c :: cs) = (G.step c).run cs := rfl
      rw [hrun]
      constructor
      · intro e
        rw [i1 e]
        simp only [List.mem_cons, exists_eq_or_imp, honly]
        cases hs with
        | vertex => simp [SetGraph.step]
        | @edge d1 w d2 label a b =>
          simp only [SetGraph.step, GraphCommand.AddEdge.injEq]
          have : e = ⟨a, b⟩ ↔ e.src = a ∧ e.dst = b := by
            cases e; simp
          rw [this, or_assoc]
      · intro v
        rw [i2 v]
        simp only [List.mem_cons, exists_eq_or_imp, honly]
        cases hs with
        | vertex => simp [SetGraph.step, or_assoc]
        | @edge d1 w d2 label a b =>
          simp only [SetGraph.step, GraphCommand.AddEdge.injEq, or_assoc]
          have : (∃ u, (v = a ∧ u = b) ∨ (u = a ∧ v = b)) ↔ v = a ∨ v = b := by
            constructor
            · rintro ⟨u, h | h⟩
              · exact .inl h.1
              · exact .inr h.2
            · rintro (h | h)
              · exact ⟨b, .inl ⟨h, rfl⟩⟩
              · exact ⟨a, .inr ⟨rfl, h⟩⟩
          simp [this, or_assoc]
  obtain ⟨k1, k2⟩ := key hcs SetGraph.empty
  constructor
  · intro a b
    rw [hE, k1]
    simp [SetGraph.empty]
  · intro v
    rw [hV, k2]
    simp [SetGraph.empty]

/-- `C16_one_meaning` and `C12_tgf_bad_line_is_reported` for two lines. -/
example (c : GraphCommand) (h : TgfSyntax (fun _ => false) "1 2 flight".toList c) :
    c = .AddEdge 1 2 ∧ ∀ cs, Tgf.readAsCommands (fun _ => false) "1 Paris\nRome 2".toList ≠ .done (.ok cs) := by
  refine ⟨C16_one_meaning _ _ _ _ h ((C16_accepts_exactly _ _ _).1 (by decide)), ?_⟩
  refine C12_tgf_bad_line_is_reported _ _ "Rome 2".toList (by decide) ⟨by decide, ?_⟩ ?_
  · rintro ⟨w, rest, e, hw⟩
    have : '#' ∈ "Rome 2".toList := by rw [e]; simp
    exact absurd this (by decide)
  · intro c hc
    have e := (C16_accepts_exactly (fun _ => false) _ c).2 hc
    rw [show Tgf.parseLine (fun _ => false) "Rome 2".toList = .done (.error "Rome 2".toList) by decide] at e
    cases e

/-- A usual TGF file: labelled vertices, the line `#`, labelled edges; vertex 3 has no line of its own. -/
example : Tgf.readAsCommands (fun _ => false) "1 Paris\n2 Rome\n#\n1 2 flight\n2 3".toList =
    .done (.ok [.AddVertex 1, .AddVertex 2, .AddEdge 1 2, .AddEdge 2 3]) := by decide +kernel
example : Tgf.readAsCommands (fun _ => false) "1 Paris\n\nRome 2".toList = .done (.error (.atLine 3 "Rome 2".toList)) := by
  decide +kernel
example : Tgf.readAsCommands (fun _ => false) "1 Paris\n18446744073709551616".toList = .panicked := by decide +kernel

end GC
