/- Lemmas about truncated command files. -/
import Verif.Proofs.Format
namespace GC
open Text Format

theorem prefix_append_cases {α : Type} {t a b : List α} (h : t <+: a ++ b) :
    t <+: a ∨ ∃ t', t = a ++ t' ∧ t' ≠ [] ∧ t' <+: b := by
  rcases List.prefix_or_prefix_of_prefix h (List.prefix_append a b) with h1 | h1
  · exact .inl h1
  · obtain ⟨t', rfl⟩ := h1
    by_cases ht : t' = []
    · subst ht; left; simp
    · exact .inr ⟨t', rfl, ht, (List.prefix_append_right_inj a).1 h⟩

/-- A prefix of an appended text: whole command lines and possibly a piece of the next one. -/
theorem prefix_commandsText {cs : List GraphCommand} {p : Text} (h : p <+: Gcmd.commandsText cs) :
    ∃ k t, p = Gcmd.commandsText (cs.take k) ++ t ∧ k ≤ cs.length ∧
      (t = [] ∨ ∃ c, cs[k]? = some c ∧ t ≠ [] ∧ t <+: Gcmd.commandIntoLine c) := by
  induction cs generalizing p with
  | nil =>
    refine ⟨0, [], ?_, Nat.le_refl _, .inl rfl⟩
    simpa [Gcmd.commandsText] using h
  | cons c cs ih =>
    have e : Gcmd.commandsText (c :: cs) = Gcmd.commandIntoLine c ++ ['\n'] ++ Gcmd.commandsText cs := by
      simp [Gcmd.commandsText]
    rw [e] at h
    rcases prefix_append_cases h with h | ⟨t', rfl, ht, h⟩
    · rcases prefix_append_cases h with h | ⟨t', rfl, ht, h⟩
      · by_cases hp : p = []
        · exact ⟨0, [], by simpa [Gcmd.commandsText] using hp, Nat.zero_le _, .inl rfl⟩
        · exact ⟨0, p, by simp [Gcmd.commandsText], Nat.zero_le _, .inr ⟨c, rfl, hp, h⟩⟩
      · have : t' = ['\n'] := by
          rcases List.prefix_concat_iff (l₂ := []) |>.1 h with h | h
          · simpa using h
          · simp at h; exact absurd h ht
        subst this
        exact ⟨1, [], by simp [Gcmd.commandsText], by simp, .inl rfl⟩
    · obtain ⟨k, t, rfl, hk, h⟩ := ih h
      refine ⟨k + 1, t, ?_, by simpa using hk, ?_⟩
      · simp [Gcmd.commandsText]
      · simpa using h

theorem digitsVal_append_ge (d r : Text) : digitsVal d ≤ digitsVal (d ++ r) := by
  induction r using List.reverseRecOn with
  | nil => simp
  | append_singleton r c ih =>
    rw [← List.append_assoc, digitsVal_snoc]
    omega

theorem denotes_prefix {d : Text} {v : VertexId} (h : d <+: showId v) (hd : d ≠ []) : ∃ v', DenotesId d v' := by
  obtain ⟨r, hr⟩ := h
  have h1 := numeral_iff.1 (denotes_showId v)
  have hn : Numeral d (digitsVal d) := by
    rw [numeral_iff]
    exact ⟨hd, fun c hc => h1.2.1 c (by rw [← hr]; simp [hc]), rfl⟩
  have hlt : digitsVal d < 2 ^ 64 := by
    have := digitsVal_append_ge d r
    rw [hr, h1.2.2] at this
    have := v.id.toNat_lt
    omega
  refine ⟨⟨UInt64.ofNat (digitsVal d)⟩, ?_⟩
  unfold DenotesId
  rw [UInt64.toNat_ofNat_of_lt' (by simpa using hlt)]
  exact hn

def allKeywords : List Text := [Gcmd.kwAddVertex, Gcmd.kwAddEdge, Gcmd.kwRemoveVertex, Gcmd.kwRemoveEdge]

theorem afterKeyword_piece : ∀ kw ∈ allKeywords, ∀ n : Fin 14, ∀ kw' ∈ allKeywords,
    afterKeyword kw' (kw.take n.1) = none ∨ afterKeyword kw' (kw.take n.1) = some [] := by decide

theorem regex_keyword {nd : Char → Bool} {t : Text} {caps : List Text} (h : GcmdRegex nd t caps) :
    ∃ kw ∈ allKeywords, ∃ r, r ≠ [] ∧ t = kw ++ r := by
  have ne : ∀ {d1 w d2 : Text}, Digits nd d1 → d1 ++ w ++ d2 ≠ [] := by
    intro d1 w d2 h hc
    simp at hc
    exact h.1 hc.1
  cases h with
  | addVertex h => exact ⟨Gcmd.kwAddVertex, by simp [allKeywords], _, h.1, rfl⟩
  | removeVertex h => exact ⟨Gcmd.kwRemoveVertex, by simp [allKeywords], _, h.1, rfl⟩
  | @addEdge d1 w d2 h _ _ => exact ⟨Gcmd.kwAddEdge, by simp [allKeywords], d1 ++ w ++ d2, ne h, by simp only [List.append_assoc]; rfl⟩
  | @removeEdge d1 w d2 h _ _ => exact ⟨Gcmd.kwRemoveEdge, by simp [allKeywords], d1 ++ w ++ d2, ne h, by simp only [List.append_assoc]; rfl⟩

theorem no_regex_keyword_prefix {nd : Char → Bool} {t kw : Text} (hk : kw ∈ allKeywords) (h : t <+: kw) :
    ∀ caps, ¬ GcmdRegex nd t caps := by
  intro caps hc
  obtain ⟨kw', hk', r, hr, e⟩ := regex_keyword hc
  have hlen : t.length < 14 := by
    have h1 := h.length_le
    have h2 : ∀ kw ∈ allKeywords, kw.length < 14 := by decide
    have := h2 kw hk
    omega
  have := afterKeyword_piece kw hk ⟨t.length, hlen⟩ kw' hk'
  rw [← List.prefix_iff_eq_take.1 h, afterKeyword_iff.2 e] at this
  simp [hr] at this

theorem no_regex_of_rest {nd : Char → Bool} {kw : Text} (hk : kw = Gcmd.kwAddEdge ∨ kw = Gcmd.kwRemoveEdge) {r : Text}
    (h : ∀ d1 w d2, r = d1 ++ w ++ d2 → Digits nd d1 → Blank w → Digits nd d2 → False) :
    ∀ caps, ¬ GcmdRegex nd (kw ++ r) caps := by
  intro caps hc
  generalize hl : kw ++ r = l at hc
  rcases hk with rfl | rfl <;> cases hc <;>
    first
    | (simp [Gcmd.kwAddEdge, Gcmd.kwRemoveEdge] at hl; done)
    | skip
  · rename_i d1 w d2 h1 h2 h3
    rw [List.append_assoc, List.append_assoc] at hl
    exact h _ _ _ (by rw [List.append_cancel_left hl, List.append_assoc]) h1 h2 h3
  · rename_i d1 w d2 h1 h2 h3
    rw [List.append_assoc, List.append_assoc] at hl
    exact h _ _ _ (by rw [List.append_cancel_left hl, List.append_assoc]) h1 h2 h3

/-- An edge command whose second id is missing cannot be parsed. -/
theorem no_regex_edge_piece (nd : Char → Bool) {kw t : Text} (hkw : kw = Gcmd.kwAddEdge ∨ kw = Gcmd.kwRemoveEdge) {a : VertexId}
    (h : t <+: kw ++ showId a ++ [' ']) : ∀ caps, ¬ GcmdRegex nd t caps := by
  have hm : kw ∈ allKeywords := by rcases hkw with rfl | rfl <;> simp [allKeywords]
  rcases prefix_append_cases h with h | ⟨s, rfl, hs, h⟩
  · rcases prefix_append_cases h with h | ⟨d1, rfl, hd1, h⟩
    · exact no_regex_keyword_prefix hm h
    · apply no_regex_of_rest hkw
      intro e1 w e2 he h1 h2 h3
      obtain ⟨x, hx⟩ := List.exists_mem_of_ne_nil _ h2.1
      have h4 : x ∈ showId a := h.subset (by rw [he]; simp [hx])
      have h5 := h2.isWhite x hx
      rw [not_white_of_ascii (showId_ascii a x h4)] at h5
      cases h5
  · have : s = [' '] := by
      rcases List.prefix_concat_iff (l₂ := []) |>.1 h with h | h
      · simpa using h
      · simp at h; exact absurd h hs
    subst this
    rw [List.append_assoc]
    apply no_regex_of_rest hkw
    intro e1 w e2 he h1 h2 h3
    have h6 : (showId a ++ [' ']).getLast? = some ' ' := by simp
    rw [he, List.getLast?_append] at h6
    cases h7 : e2.getLast? with
    | none => rw [List.getLast?_eq_none_iff] at h7; exact h3.1 h7
    | some x =>
      rw [h7] at h6
      simp at h6
      subst h6
      have := h3.2 ' ' (List.mem_of_getLast? h7)
      rw [isDigit_small (by decide)] at this
      exact absurd this (by decide)

/-- A piece of a command line either cannot be parsed or is a truncated command. -/
theorem parse_piece (nd : Char → Bool) {c : GraphCommand} {t : Text} (h : t <+: Gcmd.commandIntoLine c) :
    (∃ c', Truncated c c' ∧ GcmdSyntax t c') ∨ ∀ caps, ¬ GcmdRegex nd t caps := by
  have edge : ∀ (kw : Text), (kw = Gcmd.kwAddEdge ∨ kw = Gcmd.kwRemoveEdge) → ∀ a b, t <+: kw ++ showId a ++ [' '] ++ showId b →
      (∃ d b', d <+: showId b ∧ DenotesId d b' ∧ t = kw ++ showId a ++ [' '] ++ d) ∨ ∀ caps, ¬ GcmdRegex nd t caps := by
    intro kw hkw a b h
    rcases prefix_append_cases h with h | ⟨d, rfl, hd, h⟩
    · exact .inr (no_regex_edge_piece nd hkw h)
    · obtain ⟨b', hb'⟩ := denotes_prefix h hd
      exact .inl ⟨d, b', h, hb', rfl⟩
  have hsp := blank_space
  cases c with
  | AddVertex v =>
    rcases prefix_append_cases h with h | ⟨d, rfl, hd, h⟩
    · exact .inr (no_regex_keyword_prefix (by simp [allKeywords]) h)
    · obtain ⟨v', hv'⟩ := denotes_prefix h hd
      exact .inl ⟨_, .addVertex h hv', .addVertex hv'⟩
  | RemoveVertex v =>
    rcases prefix_append_cases h with h | ⟨d, rfl, hd, h⟩
    · exact .inr (no_regex_keyword_prefix (by simp [allKeywords]) h)
    · obtain ⟨v', hv'⟩ := denotes_prefix h hd
      exact .inl ⟨_, .removeVertex h hv', .removeVertex hv'⟩
  | AddEdge a b =>
    rcases edge _ (.inl rfl) a b h with ⟨d, b', h1, h2, rfl⟩ | h
    · exact .inl ⟨_, .addEdge h1 h2, .addEdge (denotes_showId a) hsp h2⟩
    · exact .inr h
  | RemoveEdge a b =>
    rcases edge _ (.inr rfl) a b h with ⟨d, b', h1, h2, rfl⟩ | h
    · exact .inl ⟨_, .removeEdge h1 h2, .removeEdge (denotes_showId a) hsp h2⟩
    · exact .inr h

theorem head_commandIntoLine (c : GraphCommand) :
    (Gcmd.commandIntoLine c).head? = some 'A' ∨ (Gcmd.commandIntoLine c).head? = some 'R' := by
  cases c
  · left; rfl
  · right; rfl
  · left; rfl
  · right; rfl

theorem active_piece {c : GraphCommand} {t : Text} (h : t <+: Gcmd.commandIntoLine c) (ht : t ≠ []) : ActiveLine t := by
  have hh : t.head? = (Gcmd.commandIntoLine c).head? := by
    obtain ⟨r, hr⟩ := h
    rw [← hr]
    cases t with
    | nil => exact absurd rfl ht
    | cons x t => rfl
  rcases head_commandIntoLine c with h1 | h1
  · exact not_comment_of_head (hh.trans h1) (by decide) (by decide)
  · exact not_comment_of_head (hh.trans h1) (by decide) (by decide)

end GC
