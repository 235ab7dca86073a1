/- Lemmas about the gcmd and tgf recognisers and the reading loop. -/
import Verif.Proofs.Text
import Verif.Proofs.GraphCommands
import Verif.Proofs.Prog
namespace GC
open Text Format

theorem afterKeyword_iff {kw line rest : Text} : afterKeyword kw line = some rest ↔ line = kw ++ rest := by
  unfold afterKeyword
  constructor
  · intro h
    split at h
    · rename_i hp
      rw [List.isPrefixOf_iff_prefix] at hp
      obtain ⟨t, rfl⟩ := hp
      simp at h
      rw [h]
    · cases h
  · rintro rfl
    rw [if_pos (by rw [List.isPrefixOf_iff_prefix]; exact List.prefix_append _ _)]
    simp

theorem matchOne_iff {nd : Char → Bool} {kw line d : Text} :
    matchOne nd kw line = some d ↔ line = kw ++ d ∧ Digits nd d := by
  unfold matchOne
  constructor
  · intro h
    split at h
    · rename_i rest hr
      rw [afterKeyword_iff] at hr
      split at h
      · rename_i hc
        cases h
        simp only [Bool.and_eq_true, Bool.not_eq_true', List.isEmpty_eq_false_iff, List.all_eq_true] at hc
        exact ⟨hr, hc⟩
      · cases h
    · cases h
  · rintro ⟨h, hd⟩
    rw [afterKeyword_iff.2 h]
    simp only
    rw [if_pos]
    simp only [Bool.and_eq_true, Bool.not_eq_true', List.isEmpty_eq_false_iff, List.all_eq_true]
    exact hd

theorem head_append_white {w : Text} (hw : Blank w) (r : Text) {x : Char} (h : (w ++ r).head? = some x) :
    isWhite x = true := by
  cases w with
  | nil => exact absurd rfl hw.1
  | cons c w => simp at h; subst h; exact hw.isWhite _ (by simp)

theorem head_digits {nd : Char → Bool} {d : Text} (hd : Digits nd d) (r : Text) {x : Char}
    (h : (d ++ r).head? = some x) : isDigit nd x = true := by
  cases d with
  | nil => exact absurd rfl hd.1
  | cons c w => simp at h; subst h; exact hd.2 _ (by simp)

/-- The decomposition digits / blank / rest is unique. -/
theorem split_digits_blank {nd : Char → Bool} {d1 w r : Text} (h1 : Digits nd d1) (hw : Blank w)
    (hr : ∀ x, r.head? = some x → isWhite x = false) :
    (d1 ++ (w ++ r)).takeWhile (isDigit nd) = d1 ∧
    ((d1 ++ (w ++ r)).dropWhile (isDigit nd)).takeWhile isWhite = w ∧
    ((d1 ++ (w ++ r)).dropWhile (isDigit nd)).dropWhile isWhite = r := by
  obtain ⟨e1, e2⟩ := takeWhile_append_of_neg (b := w ++ r) h1.2
    (fun x hx => not_digit_of_white (head_append_white hw r hx))
  obtain ⟨e3, e4⟩ := takeWhile_append_of_neg (b := r) hw.isWhite hr
  rw [e1, e2, e3, e4]
  exact ⟨rfl, rfl, rfl⟩

theorem matchTwo_iff {nd : Char → Bool} {kw line d1 d2 : Text} :
    matchTwo nd kw line = some (d1, d2) ↔
      ∃ w, line = kw ++ d1 ++ w ++ d2 ∧ Digits nd d1 ∧ Blank w ∧ Digits nd d2 := by
  unfold matchTwo
  constructor
  · intro h
    split at h
    · rename_i rest hr
      rw [afterKeyword_iff] at hr
      simp only at h
      split at h
      · rename_i hc
        simp only [Option.some.injEq, Prod.mk.injEq] at h
        obtain ⟨h1, h2⟩ := h
        rw [h1, h2] at hc
        simp only [Bool.and_eq_true, Bool.not_eq_true', List.isEmpty_eq_false_iff, List.all_eq_true] at hc
        obtain ⟨⟨⟨c1, c2⟩, c3⟩, c4⟩ := hc
        refine ⟨(rest.dropWhile (isDigit nd)).takeWhile isWhite, ?_, ⟨c1, ?_⟩, ⟨c2, isWhite_all.1 (all_takeWhile _ _)⟩, ⟨c3, c4⟩⟩
        · rw [hr, List.append_assoc, List.append_assoc]
          congr 1
          rw [← h2, List.takeWhile_append_dropWhile, ← h1, List.takeWhile_append_dropWhile]
        · rw [← h1]; exact all_takeWhile _ _
      · cases h
    · cases h
  · rintro ⟨w, hl, h1, hw, h2⟩
    rw [List.append_assoc, List.append_assoc] at hl
    rw [afterKeyword_iff.2 hl]
    obtain ⟨e1, e2, e3⟩ := split_digits_blank h1 hw (r := d2)
      (fun x hx => not_white_of_digit (head_digits h2 [] (by simpa using hx)))
    simp only [e1, e2, e3]
    rw [if_pos]
    simp only [Bool.and_eq_true, Bool.not_eq_true', List.isEmpty_eq_false_iff, List.all_eq_true]
    exact ⟨⟨⟨h1.1, hw.1⟩, h2.1⟩, h2.2⟩

/-! ### gcmd lines -/

/-- What `parse_line` does on a line: all cases. -/
theorem gcmd_parseLine_cases (nd : Char → Bool) (line : Text) :
    (∃ c caps, Gcmd.parseLine nd line = .done (.ok c) ∧ GcmdSyntax line c ∧ GcmdRegex nd line caps ∧ ∀ d ∈ caps, IsU64 d) ∨
    (∃ caps, Gcmd.parseLine nd line = .panicked ∧ GcmdRegex nd line caps ∧ ∃ d ∈ caps, ¬ IsU64 d) ∨
    (Gcmd.parseLine nd line = .done (.error line) ∧ ∀ caps, ¬ GcmdRegex nd line caps) := by
  unfold Gcmd.parseLine
  split
  · rename_i c1 c2 h
    obtain ⟨w, rfl, h1, hw, h2⟩ := matchTwo_iff.1 h
    rcases captureId_cases h1 with ⟨v, e, hv⟩ | ⟨e, hn⟩
    · rw [e, Run.bind_done]
      rcases captureId_cases h2 with ⟨u, e', hu⟩ | ⟨e', hn⟩
      · rw [e', Run.bind_done]
        refine .inl ⟨_, _, rfl, .addEdge hv hw hu, .addEdge h1 hw h2, ?_⟩
        simp [hv.isU64, hu.isU64]
      · rw [e', Run.bind_panicked]
        exact .inr (.inl ⟨_, rfl, .addEdge h1 hw h2, c2, by simp, hn⟩)
    · rw [e, Run.bind_panicked]
      exact .inr (.inl ⟨_, rfl, .addEdge h1 hw h2, c1, by simp, hn⟩)
  · rename_i n1
    split
    · rename_i c1 h
      obtain ⟨rfl, h1⟩ := matchOne_iff.1 h
      rcases captureId_cases h1 with ⟨v, e, hv⟩ | ⟨e, hn⟩
      · rw [e, Run.bind_done]
        refine .inl ⟨_, _, rfl, .addVertex hv, .addVertex h1, ?_⟩
        simp [hv.isU64]
      · rw [e, Run.bind_panicked]
        exact .inr (.inl ⟨_, rfl, .addVertex h1, c1, by simp, hn⟩)
    · rename_i n2
      split
      · rename_i c1 c2 h
        obtain ⟨w, rfl, h1, hw, h2⟩ := matchTwo_iff.1 h
        rcases captureId_cases h1 with ⟨v, e, hv⟩ | ⟨e, hn⟩
        · rw [e, Run.bind_done]
          rcases captureId_cases h2 with ⟨u, e', hu⟩ | ⟨e', hn⟩
          · rw [e', Run.bind_done]
            refine .inl ⟨_, _, rfl, .removeEdge hv hw hu, .removeEdge h1 hw h2, ?_⟩
            simp [hv.isU64, hu.isU64]
          · rw [e', Run.bind_panicked]
            exact .inr (.inl ⟨_, rfl, .removeEdge h1 hw h2, c2, by simp, hn⟩)
        · rw [e, Run.bind_panicked]
          exact .inr (.inl ⟨_, rfl, .removeEdge h1 hw h2, c1, by simp, hn⟩)
      · rename_i n3
        split
        · rename_i c1 h
          obtain ⟨rfl, h1⟩ := matchOne_iff.1 h
          rcases captureId_cases h1 with ⟨v, e, hv⟩ | ⟨e, hn⟩
          · rw [e, Run.bind_done]
            refine .inl ⟨_, _, rfl, .removeVertex hv, .removeVertex h1, ?_⟩
            simp [hv.isU64]
          · rw [e, Run.bind_panicked]
            exact .inr (.inl ⟨_, rfl, .removeVertex h1, c1, by simp, hn⟩)
        · rename_i n4
          refine .inr (.inr ⟨rfl, ?_⟩)
          intro caps hr
          cases hr with
          | addVertex hd => exact absurd ((matchOne_iff.2 ⟨rfl, hd⟩).symm.trans n2) (by simp)
          | removeVertex hd => exact absurd ((matchOne_iff.2 ⟨rfl, hd⟩).symm.trans n4) (by simp)
          | addEdge h1 hw h2 => exact absurd ((matchTwo_iff.2 ⟨_, rfl, h1, hw, h2⟩).symm.trans n1) (by simp)
          | removeEdge h1 hw h2 => exact absurd ((matchTwo_iff.2 ⟨_, rfl, h1, hw, h2⟩).symm.trans n3) (by simp)

/-- The captures of a regular expression match are unique: the four expressions exclude each other. -/
theorem GcmdRegex.unique {nd : Char → Bool} {line : Text} {a b : List Text}
    (h1 : GcmdRegex nd line a) (h2 : GcmdRegex nd line b) : a = b := by
  have two : ∀ {kw d1 w d2 d1' w' d2' : Text}, kw ++ d1 ++ w ++ d2 = kw ++ d1' ++ w' ++ d2' → Digits nd d1 → Blank w →
      Digits nd d2 → Digits nd d1' → Blank w' → Digits nd d2' → [d1, d2] = [d1', d2'] := by
    intro kw d1 w d2 d1' w' d2' e h1 h2 h3 h4 h5 h6
    have e1 := (matchTwo_iff (kw := kw)).2 ⟨w, rfl, h1, h2, h3⟩
    have e2 := (matchTwo_iff (kw := kw)).2 ⟨w', rfl, h4, h5, h6⟩
    rw [e, e2] at e1
    simp only [Option.some.injEq, Prod.mk.injEq] at e1
    rw [e1.1, e1.2]
  generalize hl : line = l at h2
  cases h1 <;> cases h2 <;>
    first
    | (exfalso
       simp at hl
       done)
    | skip
  · rw [List.append_cancel_left hl]
  · rw [List.append_cancel_left hl]
  · exact two hl ‹_› ‹_› ‹_› ‹_› ‹_› ‹_›
  · exact two hl ‹_› ‹_› ‹_› ‹_› ‹_› ‹_›

theorem GcmdSyntax.regex {nd : Char → Bool} {line : Text} {c : GraphCommand} (h : GcmdSyntax line c) :
    ∃ caps, GcmdRegex nd line caps ∧ ∀ d ∈ caps, IsU64 d := by
  cases h with
  | addVertex h => exact ⟨_, .addVertex (Numeral.digits nd h), by simpa using h.isU64⟩
  | removeVertex h => exact ⟨_, .removeVertex (Numeral.digits nd h), by simpa using h.isU64⟩
  | addEdge h1 hw h2 => exact ⟨_, .addEdge (Numeral.digits nd h1) hw (Numeral.digits nd h2), by simpa using ⟨h1.isU64, h2.isU64⟩⟩
  | removeEdge h1 hw h2 =>
    exact ⟨_, .removeEdge (Numeral.digits nd h1) hw (Numeral.digits nd h2), by simpa using ⟨h1.isU64, h2.isU64⟩⟩

/-- A line has at most one meaning. -/
theorem GcmdSyntax.unique {line : Text} {c d : GraphCommand} (h1 : GcmdSyntax line c) (h2 : GcmdSyntax line d) : c = d := by
  have two : ∀ {kw d1 w d2 d1' w' d2' : Text} {a b a' b' : VertexId}, kw ++ d1 ++ w ++ d2 = kw ++ d1' ++ w' ++ d2' →
      DenotesId d1 a → Blank w → DenotesId d2 b → DenotesId d1' a' → Blank w' → DenotesId d2' b' → a = a' ∧ b = b' := by
    intro kw d1 w d2 d1' w' d2' a b a' b' e h1 h2 h3 h4 h5 h6
    have nd : Char → Bool := fun _ => false
    have e1 := (matchTwo_iff (kw := kw)).2 ⟨w, rfl, Numeral.digits nd h1, h2, Numeral.digits nd h3⟩
    have e2 := (matchTwo_iff (kw := kw)).2 ⟨w', rfl, Numeral.digits nd h4, h5, Numeral.digits nd h6⟩
    rw [e, e2] at e1
    simp only [Option.some.injEq, Prod.mk.injEq] at e1
    obtain ⟨rfl, rfl⟩ := e1
    exact ⟨h1.unique h4, h3.unique h6⟩
  generalize hl : line = l at h2
  cases h1 <;> cases h2 <;>
    first
    | (exfalso
       simp at hl
       done)
    | skip
  · rename_i h1 _ _ h2
    have := List.append_cancel_left hl
    subst this
    rw [h1.unique h2]
  · rename_i h1 _ _ h2
    have := List.append_cancel_left hl
    subst this
    rw [h1.unique h2]
  · obtain ⟨rfl, rfl⟩ := two hl ‹_› ‹_› ‹_› ‹_› ‹_› ‹_›; rfl
  · obtain ⟨rfl, rfl⟩ := two hl ‹_› ‹_› ‹_› ‹_› ‹_› ‹_›; rfl

theorem gcmd_parseLine_ok {nd : Char → Bool} {line : Text} {c : GraphCommand} :
    Gcmd.parseLine nd line = .done (.ok c) ↔ GcmdSyntax line c := by
  rcases gcmd_parseLine_cases nd line with ⟨c', caps, e, h1, h2, h3⟩ | ⟨caps, e, h1, h2⟩ | ⟨e, h1⟩
  · rw [e]
    simp only [Run.done.injEq, Except.ok.injEq]
    constructor
    · rintro rfl; exact h1
    · intro h; exact h1.unique h
  · rw [e]
    refine ⟨fun h => (by cases h), fun h => ?_⟩
    obtain ⟨caps', h3, h4⟩ := h.regex (nd := nd)
    rw [h3.unique h1] at h4
    obtain ⟨d, hd, hn⟩ := h2
    exact absurd (h4 d hd) hn
  · rw [e]
    refine ⟨fun h => (by cases h), fun h => ?_⟩
    obtain ⟨caps', h3, h4⟩ := h.regex (nd := nd)
    exact absurd h3 (h1 _)

theorem gcmd_parseLine_panicked {nd : Char → Bool} {line : Text} :
    Gcmd.parseLine nd line = .panicked ↔ ∃ caps, GcmdRegex nd line caps ∧ ∃ d ∈ caps, ¬ IsU64 d := by
  rcases gcmd_parseLine_cases nd line with ⟨c', caps, e, h1, h2, h3⟩ | ⟨caps, e, h1, h2⟩ | ⟨e, h1⟩
  · rw [e]
    refine ⟨fun h => (by cases h), ?_⟩
    rintro ⟨caps', h4, d, hd, hn⟩
    rw [h4.unique h2] at hd
    exact absurd (h3 d hd) hn
  · rw [e]
    exact ⟨fun _ => ⟨caps, h1, h2⟩, fun _ => rfl⟩
  · rw [e]
    refine ⟨fun h => (by cases h), ?_⟩
    rintro ⟨caps', h4, d, hd, hn⟩
    exact absurd h4 (h1 _)

theorem gcmd_parseLine_error {nd : Char → Bool} {line msg : Text} :
    Gcmd.parseLine nd line = .done (.error msg) ↔ msg = line ∧ ∀ caps, ¬ GcmdRegex nd line caps := by
  rcases gcmd_parseLine_cases nd line with ⟨c', caps, e, h1, h2, h3⟩ | ⟨caps, e, h1, h2⟩ | ⟨e, h1⟩
  · rw [e]
    exact ⟨fun h => (by cases h), fun h => absurd h2 (h.2 _)⟩
  · rw [e]
    exact ⟨fun h => (by cases h), fun h => absurd h1 (h.2 _)⟩
  · rw [e]
    simp only [Run.done.injEq, Except.error.injEq]
    exact ⟨fun h => ⟨h.symm, h1⟩, fun h => h.1.symm⟩

theorem gcmd_syntax_commandIntoLine (c : GraphCommand) : GcmdSyntax (Gcmd.commandIntoLine c) c := by
  have hb : Blank [' '] := ⟨by simp, by intro c hc; simp at hc; subst hc; decide⟩
  cases c with
  | AddVertex v => exact .addVertex (denotes_showId v)
  | RemoveVertex v => exact .removeVertex (denotes_showId v)
  | AddEdge a b => exact .addEdge (denotes_showId a) hb (denotes_showId b)
  | RemoveEdge a b => exact .removeEdge (denotes_showId a) hb (denotes_showId b)

theorem ascii_ne_newline {c : Char} (h : isAsciiDigit c = true) : c ≠ '\n' ∧ c ≠ '\r' ∧ c ≠ '#' := by
  refine ⟨?_, ?_, ?_⟩ <;> (rintro rfl; exact absurd h (by decide))

theorem showId_ascii (v : VertexId) : ∀ c ∈ showId v, isAsciiDigit c = true := (denotes_showId v).ascii

theorem showId_ne_nil (v : VertexId) : showId v ≠ [] := Numeral.ne_nil (denotes_showId v)

theorem last_of_showId (pre : Text) (v : VertexId) : ∃ c, (pre ++ showId v).getLast? = some c ∧ isAsciiDigit c = true := by
  rw [List.getLast?_append]
  cases h : (showId v).getLast? with
  | none => rw [List.getLast?_eq_none_iff] at h; exact absurd h (showId_ne_nil v)
  | some c => exact ⟨c, rfl, showId_ascii v c (List.mem_of_getLast? h)⟩

theorem plain_of_digits (pre : Text) (v : VertexId) (hp : ∀ c ∈ pre, c ≠ '\n') : PlainLine (pre ++ showId v) := by
  constructor
  · intro c hc
    rcases List.mem_append.1 hc with hc | hc
    · exact hp c hc
    · exact (ascii_ne_newline (showId_ascii v c hc)).1
  · obtain ⟨c, hc, ha⟩ := last_of_showId pre v
    rw [hc]
    intro h
    exact (ascii_ne_newline ha).2.1 (Option.some.inj h)

theorem plain_commandIntoLine (c : GraphCommand) : PlainLine (Gcmd.commandIntoLine c) := by
  have two : ∀ (kw : Text) (a b : VertexId), (∀ c ∈ kw, c ≠ '\n') → PlainLine (kw ++ showId a ++ [' '] ++ showId b) := by
    intro kw a b hk
    apply plain_of_digits
    intro c hc
    simp only [List.mem_append, List.mem_singleton] at hc
    rcases hc with (hc | hc) | rfl
    · exact hk c hc
    · exact (ascii_ne_newline (showId_ascii a c hc)).1
    · decide
  cases c with
  | AddVertex v => exact plain_of_digits _ v (by decide)
  | RemoveVertex v => exact plain_of_digits _ v (by decide)
  | AddEdge a b => exact two _ a b (by decide)
  | RemoveEdge a b => exact two _ a b (by decide)

theorem not_comment_of_head {l : Text} {c : Char} (h : l.head? = some c) (hw : isWhite c = false) (hc : c ≠ '#') :
    ActiveLine l := by
  constructor
  · rintro rfl; cases h
  · rintro ⟨w, rest, rfl, hws⟩
    cases w with
    | nil => simp at h; exact hc h.symm
    | cons x w =>
      simp at h; subst h
      rw [isWhite_iff.2 (hws x (by simp))] at hw; cases hw

/-- A line with a meaning is never skipped. -/
theorem GcmdRegex.active {nd : Char → Bool} {line : Text} {caps : List Text} (h : GcmdRegex nd line caps) : ActiveLine line := by
  cases h
  · exact not_comment_of_head (c := 'A') rfl (by decide) (by decide)
  · exact not_comment_of_head (c := 'R') rfl (by decide) (by decide)
  · exact not_comment_of_head (c := 'A') rfl (by decide) (by decide)
  · exact not_comment_of_head (c := 'R') rfl (by decide) (by decide)

theorem GcmdSyntax.active {line : Text} {c : GraphCommand} (h : GcmdSyntax line c) : ActiveLine line := by
  obtain ⟨caps, h, _⟩ := h.regex (nd := fun _ => false)
  exact h.active

/-! ### The reading loop -/

section Loop
variable {parse : Text → Run (Except Text GraphCommand)}

theorem readLoop_inactive {l : Text} (h : ¬ ActiveLine l) (i : Nat) (ls : List Text) (acc : List GraphCommand) :
    readLoop parse i (l :: ls) acc = readLoop parse (i + 1) ls acc := by
  rw [readLoop, if_neg]
  rw [active_iff]
  exact h

theorem readLoop_active {l : Text} (h : ActiveLine l) (i : Nat) (ls : List Text) (acc : List GraphCommand) :
    readLoop parse i (l :: ls) acc = (parse l).bind fun r =>
        match r with
        | .ok command => readLoop parse (i + 1) ls (acc ++ [command])
        | .error msg => .done (.error (.atLine (i + 1) msg)) := by
  rw [readLoop, if_pos (active_iff.2 h)]
  congr 1

/-- `ReadsAs parse ls cs`: the active lines of `ls` are understood as the commands `cs`, in order. -/
inductive ReadsAs (parse : Text → Run (Except Text GraphCommand)) : List Text → List GraphCommand → Prop where
  | nil : ReadsAs parse [] []
  | skip {l ls cs} : ¬ ActiveLine l → ReadsAs parse ls cs → ReadsAs parse (l :: ls) cs
  | cons {l ls c cs} : ActiveLine l → parse l = .done (.ok c) → ReadsAs parse ls cs → ReadsAs parse (l :: ls) (c :: cs)

theorem ReadsAs.append {ls ls' : List Text} {cs cs' : List GraphCommand} (h : ReadsAs parse ls cs) (h' : ReadsAs parse ls' cs') :
    ReadsAs parse (ls ++ ls') (cs ++ cs') := by
  induction h with
  | nil => exact h'
  | skip h _ ih => exact .skip h ih
  | cons h1 h2 _ ih => exact .cons h1 h2 ih

theorem readLoop_append {ls : List Text} {cs : List GraphCommand} (h : ReadsAs parse ls cs) (i : Nat) (rest : List Text)
    (acc : List GraphCommand) :
    readLoop parse i (ls ++ rest) acc = readLoop parse (i + ls.length) rest (acc ++ cs) := by
  induction h generalizing i acc with
  | nil => simp
  | skip h _ ih =>
    rw [List.cons_append, readLoop_inactive h, ih]
    congr 1
    simp; omega
  | cons h1 h2 _ ih =>
    rw [List.cons_append, readLoop_active h1, h2]
    simp only [Run.bind_done]
    rw [ih]
    congr 1
    · simp; omega
    · simp

/-- All outcomes of the reading loop. -/
theorem readLoop_cases (hrun : ∀ l, parse l ≠ .running) (ls : List Text) :
    (∃ cs, ReadsAs parse ls cs) ∨
    (∃ before l after cs, ls = before ++ l :: after ∧ ReadsAs parse before cs ∧ ActiveLine l ∧
      (parse l = .panicked ∨ ∃ msg, parse l = .done (.error msg))) := by
  induction ls with
  | nil => exact .inl ⟨[], .nil⟩
  | cons l ls ih =>
    by_cases ha : ActiveLine l
    · cases hp : parse l with
      | running => exact absurd hp (hrun l)
      | panicked => exact .inr ⟨[], l, ls, [], rfl, .nil, ha, .inl hp⟩
      | done r =>
        cases r with
        | error msg => exact .inr ⟨[], l, ls, [], rfl, .nil, ha, .inr ⟨msg, hp⟩⟩
        | ok c =>
          rcases ih with ⟨cs, h⟩ | ⟨b, l', a, cs, rfl, h2, h3, h4⟩
          · exact .inl ⟨c :: cs, .cons ha hp h⟩
          · exact .inr ⟨l :: b, l', a, c :: cs, rfl, .cons ha hp h2, h3, h4⟩
    · rcases ih with ⟨cs, h⟩ | ⟨b, l', a, cs, rfl, h2, h3, h4⟩
      · exact .inl ⟨cs, .skip ha h⟩
      · exact .inr ⟨l :: b, l', a, cs, rfl, .skip ha h2, h3, h4⟩

theorem readAsCommands_of_readsAs {content : Text} {cs : List GraphCommand} (h : ReadsAs parse (lines content) cs) :
    Format.readAsCommands parse content = .done (.ok cs) := by
  unfold Format.readAsCommands
  have := readLoop_append h 0 [] []
  simp only [List.append_nil] at this
  rw [this]
  simp [readLoop]

theorem readAsCommands_bad {content : Text} {before after : List Text} {l : Text} {cs : List GraphCommand}
    (hl : lines content = before ++ l :: after) (h : ReadsAs parse before cs) (ha : ActiveLine l) :
    (parse l = .panicked → Format.readAsCommands parse content = .panicked) ∧
    (∀ msg, parse l = .done (.error msg) →
      Format.readAsCommands parse content = .done (.error (.atLine (before.length + 1) msg))) := by
  unfold Format.readAsCommands
  rw [hl, readLoop_append h, readLoop_active ha]
  constructor
  · intro hp; rw [hp]; rfl
  · intro msg hp; rw [hp]; simp

theorem readAsCommands_ok_iff (hrun : ∀ l, parse l ≠ .running) {content : Text} {cs : List GraphCommand} :
    Format.readAsCommands parse content = .done (.ok cs) ↔ ReadsAs parse (lines content) cs := by
  constructor
  · intro h
    rcases readLoop_cases hrun (lines content) with ⟨cs', h'⟩ | ⟨b, l, a, cs', h1, h2, h3, h4⟩
    · rw [readAsCommands_of_readsAs h'] at h
      cases h
      exact h'
    · have := readAsCommands_bad h1 h2 h3
      rcases h4 with h4 | ⟨msg, h4⟩
      · rw [this.1 h4] at h; cases h
      · rw [this.2 msg h4] at h; cases h
  · exact readAsCommands_of_readsAs

theorem read_of_readsAs {content : Text} {cs : List GraphCommand} (h : ReadsAs parse (lines content) cs) :
    Format.read parse content = .done (.ok (GraphCommand.applyCommands cs .new)) := by
  unfold Format.read
  rw [readAsCommands_of_readsAs h]
  rfl

end Loop

theorem gcmd_no_running (nd : Char → Bool) (l : Text) : Gcmd.parseLine nd l ≠ .running := by
  rcases gcmd_parseLine_cases nd l with ⟨c', caps, e, _⟩ | ⟨caps, e, _⟩ | ⟨e, _⟩ <;> rw [e] <;> simp

theorem readsAs_commandLines (nd : Char → Bool) (cs : List GraphCommand) :
    ReadsAs (Gcmd.parseLine nd) (cs.map Gcmd.commandIntoLine) cs := by
  induction cs with
  | nil => exact .nil
  | cons c cs ih =>
    exact .cons (gcmd_syntax_commandIntoLine c).active (gcmd_parseLine_ok.2 (gcmd_syntax_commandIntoLine c)) ih

theorem commandsText_eq (cs : List GraphCommand) :
    Gcmd.commandsText cs = (cs.map Gcmd.commandIntoLine).flatMap fun l => l ++ ['\n'] := by
  unfold Gcmd.commandsText
  rw [List.flatMap_map]

theorem lines_commandsText (cs : List GraphCommand) : lines (Gcmd.commandsText cs) = cs.map Gcmd.commandIntoLine := by
  rw [commandsText_eq]
  apply lines_flatMap
  intro l hl
  obtain ⟨c, _, rfl⟩ := List.mem_map.1 hl
  exact plain_commandIntoLine c

theorem terminated_commandsText (cs : List GraphCommand) : NewlineTerminated (Gcmd.commandsText cs) :=
  newlineTerminated_flatMap _ _

/-- A saved graph is the text of its commands. -/
theorem gcmd_save_eq (g : DirectedGraph) : Gcmd.save g = Gcmd.commandsText (GraphCommand.asCommands g) := by
  rw [asCommands_eq]
  unfold Gcmd.save Gcmd.commandsText
  rw [List.flatMap_append, List.flatMap_map, List.flatMap_map]
  rfl

/-! ### tgf lines -/

theorem tgf_matchEdge_iff {nd : Char → Bool} {line d1 d2 : Text} :
    Tgf.matchEdge nd line = some (d1, d2) ↔
      ∃ w rest, line = d1 ++ w ++ d2 ++ rest ∧ Digits nd d1 ∧ Blank w ∧ Digits nd d2 ∧ IsLabel nd rest := by
  unfold Tgf.matchEdge
  constructor
  · intro h
    simp only at h
    split at h
    · rename_i hc
      simp only [Option.some.injEq, Prod.mk.injEq] at h
      obtain ⟨h1, h2⟩ := h
      rw [h1, h2] at hc
      simp only [Bool.and_eq_true, Bool.not_eq_true', List.isEmpty_eq_false_iff, List.all_eq_true,
        decide_eq_true_eq] at hc
      obtain ⟨⟨⟨c1, c2⟩, c3⟩, c4⟩ := hc
      refine ⟨_, _, ?_, ⟨c1, ?_⟩, ⟨c2, isWhite_all.1 (all_takeWhile _ _)⟩, ⟨c3, ?_⟩, ⟨c4, head_dropWhile _ _⟩⟩
      · rw [List.append_assoc, List.append_assoc, ← h2, List.takeWhile_append_dropWhile,
          List.takeWhile_append_dropWhile, ← h1, List.takeWhile_append_dropWhile]
      · rw [← h1]; exact all_takeWhile _ _
      · rw [← h2]; exact all_takeWhile _ _
    · cases h
  · rintro ⟨w, rest, hl, h1, hw, h2, h3⟩
    rw [List.append_assoc, List.append_assoc] at hl
    obtain ⟨e1, e2, e3⟩ := split_digits_blank h1 hw (r := d2 ++ rest)
      (fun x hx => not_white_of_digit (head_digits h2 rest hx))
    obtain ⟨e4, e5⟩ := takeWhile_append_of_neg (b := rest) h2.2 h3.2
    simp only [hl, e1, e2, e3, e4, e5]
    rw [if_pos]
    simp only [Bool.and_eq_true, Bool.not_eq_true', List.isEmpty_eq_false_iff, List.all_eq_true, decide_eq_true_eq]
    exact ⟨⟨⟨h1.1, hw.1⟩, h2.1⟩, h3.1⟩

theorem tgf_matchVertex_iff {nd : Char → Bool} {line d : Text} :
    Tgf.matchVertex nd line = some d ↔ ∃ rest, line = d ++ rest ∧ Digits nd d ∧ IsLabel nd rest := by
  unfold Tgf.matchVertex
  constructor
  · intro h
    simp only at h
    split at h
    · rename_i hc
      simp only [Option.some.injEq] at h
      rw [h] at hc
      simp only [Bool.and_eq_true, Bool.not_eq_true', List.isEmpty_eq_false_iff, List.all_eq_true,
        decide_eq_true_eq] at hc
      refine ⟨_, ?_, ⟨hc.1, ?_⟩, ⟨hc.2, head_dropWhile _ _⟩⟩
      · rw [← h, List.takeWhile_append_dropWhile]
      · rw [← h]; exact all_takeWhile _ _
    · cases h
  · rintro ⟨rest, rfl, h1, h2⟩
    obtain ⟨e4, e5⟩ := takeWhile_append_of_neg (b := rest) h1.2 h2.2
    simp only [e4, e5]
    rw [if_pos]
    simp only [Bool.and_eq_true, Bool.not_eq_true', List.isEmpty_eq_false_iff, List.all_eq_true, decide_eq_true_eq]
    exact ⟨h1.1, h2.1⟩

theorem captureId_of_denotes {s : Text} {v : VertexId} (h : DenotesId s v) : captureId s = .done v :=
  (captureId_done (Numeral.digits (fun _ => false) h)).2 h

theorem tgf_parseLine_edge {nd : Char → Bool} {d1 w d2 rest : Text} {a b : VertexId} (h1 : DenotesId d1 a) (hw : Blank w)
    (h2 : DenotesId d2 b) (hr : IsLabel nd rest) :
    Tgf.parseLine nd (d1 ++ w ++ d2 ++ rest) = .done (.ok (.AddEdge a b)) := by
  unfold Tgf.parseLine
  rw [tgf_matchEdge_iff.2 ⟨w, rest, rfl, Numeral.digits nd h1, hw, Numeral.digits nd h2, hr⟩]
  simp only [captureId_of_denotes h1, captureId_of_denotes h2, Run.bind_done]

theorem tgf_matchEdge_none {nd : Char → Bool} {d label : Text} (hd : Digits nd d) (hl : IsLabel nd label)
    (hn : ¬ LooksLikeSecondId nd label) : Tgf.matchEdge nd (d ++ label) = none := by
  cases h : Tgf.matchEdge nd (d ++ label) with
  | none => rfl
  | some p =>
    obtain ⟨d1, d2⟩ := p
    obtain ⟨w, rest, he, h1, hw, h2, hr⟩ := tgf_matchEdge_iff.1 h
    exfalso
    apply hn
    have e1 := takeWhile_append_of_neg (b := label) hd.2 hl.2
    have e2 := split_digits_blank h1 hw (r := d2 ++ rest) (fun x hx => not_white_of_digit (head_digits h2 rest hx))
    have he' : d ++ label = d1 ++ (w ++ (d2 ++ rest)) := by rw [he]; simp
    rw [he'] at e1
    have : d = d1 := e1.1.symm.trans e2.1
    subst this
    have hlab := List.append_cancel_left he'
    cases hd2 : d2 with
    | nil => exact absurd hd2 h2.1
    | cons c t =>
      refine ⟨w, c, t ++ rest, ?_, hw, h2.2 c (by simp [hd2])⟩
      rw [hlab, hd2]; rfl

theorem tgf_parseLine_vertex {nd : Char → Bool} {d label : Text} {v : VertexId} (hd : DenotesId d v) (hl : IsLabel nd label)
    (hn : ¬ LooksLikeSecondId nd label) : Tgf.parseLine nd (d ++ label) = .done (.ok (.AddVertex v)) := by
  unfold Tgf.parseLine
  rw [tgf_matchEdge_none (Numeral.digits nd hd) hl hn]
  simp only
  rw [tgf_matchVertex_iff.2 ⟨label, rfl, Numeral.digits nd hd, hl⟩]
  simp only [captureId_of_denotes hd, Run.bind_done]

/-- All outcomes of `tgf::parse_line`. -/
theorem tgf_parseLine_cases (nd : Char → Bool) (line : Text) :
    (∃ c, Tgf.parseLine nd line = .done (.ok c)) ∨ Tgf.parseLine nd line = .panicked ∨
      Tgf.parseLine nd line = .done (.error line) := by
  unfold Tgf.parseLine
  split
  · rename_i c1 c2 h
    obtain ⟨w, rest, rfl, h1, hw, h2, hr⟩ := tgf_matchEdge_iff.1 h
    rcases captureId_cases h1 with ⟨v, e, hv⟩ | ⟨e, hn⟩
    · rw [e, Run.bind_done]
      rcases captureId_cases h2 with ⟨u, e', hu⟩ | ⟨e', hn⟩
      · rw [e', Run.bind_done]; exact .inl ⟨_, rfl⟩
      · rw [e', Run.bind_panicked]; exact .inr (.inl rfl)
    · rw [e, Run.bind_panicked]; exact .inr (.inl rfl)
  · split
    · rename_i c1 h
      obtain ⟨rest, rfl, h1, hr⟩ := tgf_matchVertex_iff.1 h
      rcases captureId_cases h1 with ⟨v, e, hv⟩ | ⟨e, hn⟩
      · rw [e, Run.bind_done]; exact .inl ⟨_, rfl⟩
      · rw [e, Run.bind_panicked]; exact .inr (.inl rfl)
    · exact .inr (.inr rfl)

theorem tgf_no_running (nd : Char → Bool) (l : Text) : Tgf.parseLine nd l ≠ .running := by
  rcases tgf_parseLine_cases nd l with ⟨c', e⟩ | e | e <;> rw [e] <;> simp

theorem isLabel_nil (nd : Char → Bool) : IsLabel nd [] := ⟨by simp, by simp⟩

theorem blank_space : Blank [' '] := ⟨by simp, by intro c hc; simp at hc; subst hc; decide⟩

/-- The lines of a TGF file written by `tgf::save`. -/
def tgfLine : GraphCommand → Text
  | .AddVertex v => showId v
  | .AddEdge a b => showId a ++ [' '] ++ showId b
  | _ => []

theorem tgf_save_eq (g : DirectedGraph) :
    Tgf.save g = ((GraphCommand.asCommands g).map tgfLine).flatMap fun l => l ++ ['\n'] := by
  rw [asCommands_eq]
  unfold Tgf.save
  simp only [List.map_append, List.map_map, List.flatMap_append, List.flatMap_map]
  rfl

theorem active_of_digits {l : Text} (v : VertexId) (rest : Text) (h : l = showId v ++ rest) : ActiveLine l := by
  subst h
  cases hs : showId v with
  | nil => exact absurd hs (showId_ne_nil v)
  | cons c t =>
    have hc := showId_ascii v c (by simp [hs])
    exact not_comment_of_head (c := c) rfl (not_white_of_ascii hc) (ascii_ne_newline hc).2.2

theorem tgf_readsAs (nd : Char → Bool) (cs : List GraphCommand)
    (hcs : ∀ c ∈ cs, (∃ v, c = .AddVertex v) ∨ ∃ a b, c = .AddEdge a b) :
    ReadsAs (Tgf.parseLine nd) (cs.map tgfLine) cs ∧ ∀ l ∈ cs.map tgfLine, PlainLine l := by
  induction cs with
  | nil => exact ⟨.nil, by simp⟩
  | cons c cs ih =>
    obtain ⟨ih1, ih2⟩ := ih fun c hc => hcs c (by simp [hc])
    rcases hcs c (by simp) with ⟨v, rfl⟩ | ⟨a, b, rfl⟩
    · constructor
      · refine .cons (active_of_digits v [] (by simp [tgfLine])) ?_ ih1
        have := tgf_parseLine_vertex (nd := nd) (denotes_showId v) (isLabel_nil nd)
          (by rintro ⟨w, c, r, h, _⟩; simp at h)
        simpa [tgfLine] using this
      · intro l hl
        rw [List.map_cons, List.mem_cons] at hl
        rcases hl with rfl | hl
        · have := plain_of_digits [] v (by simp)
          simpa [tgfLine] using this
        · exact ih2 l hl
    · constructor
      · refine .cons (active_of_digits a ([' '] ++ showId b) (by simp [tgfLine])) ?_ ih1
        have := tgf_parseLine_edge (denotes_showId a) blank_space (denotes_showId b) (isLabel_nil nd)
        simpa [tgfLine] using this
      · intro l hl
        rw [List.map_cons, List.mem_cons] at hl
        rcases hl with rfl | hl
        · apply plain_of_digits
          intro c hc
          rcases List.mem_append.1 hc with hc | hc
          · exact (ascii_ne_newline (showId_ascii a c hc)).1
          · simp at hc; subst hc; decide
        · exact ih2 l hl

end GC
