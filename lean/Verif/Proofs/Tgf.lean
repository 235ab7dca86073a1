/-
Lines and files in TGF: all outcomes of `tgf::parse_line` in terms of `TgfSyntax` and `TgfShape`.
-/
import Verif.Spec.Tgf
import Verif.Proofs.Format
namespace GC
open Text Format

theorem digit_not_special {nd : Char → Bool} {c : Char} (h : isDigit nd c = true) : c ≠ '#' := by
  rintro rfl
  rw [isDigit_small (by decide)] at h
  exact absurd h (by decide)

theorem TgfShape.active {nd : Char → Bool} {line : Text} {caps : List Text} (h : TgfShape nd line caps) : ActiveLine line := by
  have key : ∀ d r : Text, Digits nd d → ActiveLine (d ++ r) := by
    intro d r hd
    cases d with
    | nil => exact absurd rfl hd.1
    | cons c d =>
      have hc := hd.2 c (by simp)
      exact not_comment_of_head (c := c) rfl (not_white_of_digit hc) (digit_not_special hc)
  cases h with
  | vertex hd _ _ => exact key _ _ hd
  | edge h1 _ _ _ => rw [List.append_assoc, List.append_assoc]; exact key _ _ h1

theorem TgfShape.unique {nd : Char → Bool} {line : Text} {a b : List Text} (h1 : TgfShape nd line a) (h2 : TgfShape nd line b) :
    a = b := by
  have hm : ∀ {line : Text} {caps : List Text}, TgfShape nd line caps →
      (∃ d1 d2, caps = [d1, d2] ∧ Tgf.matchEdge nd line = some (d1, d2)) ∨
      (∃ d, caps = [d] ∧ Tgf.matchEdge nd line = none ∧ Tgf.matchVertex nd line = some d) := by
    intro line caps h
    cases h with
    | vertex hd hl hn => exact .inr ⟨_, rfl, tgf_matchEdge_none hd hl hn, tgf_matchVertex_iff.2 ⟨_, rfl, hd, hl⟩⟩
    | edge h1 hw h2 hl => exact .inl ⟨_, _, rfl, tgf_matchEdge_iff.2 ⟨_, _, rfl, h1, hw, h2, hl⟩⟩
  rcases hm h1 with ⟨d1, d2, rfl, e⟩ | ⟨d, rfl, e, e'⟩ <;> rcases hm h2 with ⟨c1, c2, rfl, f⟩ | ⟨c, rfl, f, f'⟩
  · rw [e] at f; cases f; rfl
  · rw [e] at f; cases f
  · rw [e] at f; cases f
  · rw [e'] at f'; cases f'; rfl

theorem TgfSyntax.shape {nd : Char → Bool} {line : Text} {c : GraphCommand} (h : TgfSyntax nd line c) :
    ∃ caps, TgfShape nd line caps ∧ ∀ d ∈ caps, IsU64 d := by
  cases h with
  | vertex h hl hn => exact ⟨_, .vertex (Numeral.digits nd h) hl hn, by simpa using h.isU64⟩
  | edge h1 hw h2 hl => exact ⟨_, .edge (Numeral.digits nd h1) hw (Numeral.digits nd h2) hl, by simpa using ⟨h1.isU64, h2.isU64⟩⟩

/-- All outcomes of `tgf::parse_line`. -/
theorem tgf_parseLine_all (nd : Char → Bool) (line : Text) :
    (∃ c, Tgf.parseLine nd line = .done (.ok c) ∧ TgfSyntax nd line c) ∨
    (∃ caps, Tgf.parseLine nd line = .panicked ∧ TgfShape nd line caps ∧ ∃ d ∈ caps, ¬ IsU64 d) ∨
    (Tgf.parseLine nd line = .done (.error line) ∧ ∀ caps, ¬ TgfShape nd line caps) := by
  unfold Tgf.parseLine
  cases h : Tgf.matchEdge nd line with
  | some p =>
    obtain ⟨c1, c2⟩ := p
    obtain ⟨w, rest, rfl, h1, hw, h2, hr⟩ := tgf_matchEdge_iff.1 h
    have hs := TgfShape.edge h1 hw h2 hr
    simp only
    rcases captureId_cases h1 with ⟨v, e, hv⟩ | ⟨e, hn⟩
    · rcases captureId_cases h2 with ⟨u, e', hu⟩ | ⟨e', hn⟩
      · rw [e, Run.bind_done, e', Run.bind_done]; exact .inl ⟨_, rfl, .edge hv hw hu hr⟩
      · rw [e, Run.bind_done, e', Run.bind_panicked]; exact .inr (.inl ⟨_, rfl, hs, c2, by simp, hn⟩)
    · rw [e, Run.bind_panicked]; exact .inr (.inl ⟨_, rfl, hs, c1, by simp, hn⟩)
  | none =>
    simp only
    have hn2 : ∀ d label : Text, line = d ++ label → Digits nd d → IsLabel nd label → ¬ LooksLikeSecondId nd label := by
      rintro d label rfl hd hl ⟨w, c, rest, rfl, hw, hc⟩
      have : Tgf.matchEdge nd (d ++ (w ++ c :: rest)) = some (d, c :: rest.takeWhile (isDigit nd)) := by
        refine tgf_matchEdge_iff.2 ⟨w, rest.dropWhile (isDigit nd), by simp [List.takeWhile_append_dropWhile], hd, hw,
          ⟨by simp, ?_⟩, ?_, ?_⟩
        · intro x hx
          rcases List.mem_cons.1 hx with rfl | hx
          · exact hc
          · exact all_takeWhile _ _ x hx
        · intro x hx
          exact hl.1 x (by
            have := (List.dropWhile_sublist (isDigit nd)).subset hx
            simp [this])
        · exact fun x hx => head_dropWhile _ _ x hx
      rw [this] at h
      cases h
    cases h' : Tgf.matchVertex nd line with
    | some c1 =>
      obtain ⟨rest, rfl, h1, hr⟩ := tgf_matchVertex_iff.1 h'
      have hl := hn2 _ _ rfl h1 hr
      simp only
      rcases captureId_cases h1 with ⟨v, e, hv⟩ | ⟨e, hn⟩
      · rw [e, Run.bind_done]; exact .inl ⟨_, rfl, .vertex hv hr hl⟩
      · rw [e, Run.bind_panicked]; exact .inr (.inl ⟨_, rfl, .vertex h1 hr hl, c1, by simp, hn⟩)
    | none =>
      refine .inr (.inr ⟨rfl, ?_⟩)
      intro caps hs
      cases hs with
      | vertex hd hl hn => rw [tgf_matchVertex_iff.2 ⟨_, rfl, hd, hl⟩] at h'; cases h'
      | edge h1 hw h2 hl => rw [tgf_matchEdge_iff.2 ⟨_, _, rfl, h1, hw, h2, hl⟩] at h; cases h

theorem TgfSyntax.parse {nd : Char → Bool} {line : Text} {c : GraphCommand} (h : TgfSyntax nd line c) :
    Tgf.parseLine nd line = .done (.ok c) := by
  cases h with
  | vertex h hl hn => exact tgf_parseLine_vertex h hl hn
  | edge h1 hw h2 hl => exact tgf_parseLine_edge h1 hw h2 hl

theorem tgf_parseLine_ok {nd : Char → Bool} {line : Text} {c : GraphCommand} :
    Tgf.parseLine nd line = .done (.ok c) ↔ TgfSyntax nd line c := by
  refine ⟨fun h => ?_, TgfSyntax.parse⟩
  rcases tgf_parseLine_all nd line with ⟨c', e, hs⟩ | ⟨_, e, _⟩ | ⟨e, _⟩
  · rw [e] at h; cases h; exact hs
  · rw [e] at h; cases h
  · rw [e] at h; cases h

theorem tgf_parseLine_panicked {nd : Char → Bool} {line : Text} :
    Tgf.parseLine nd line = .panicked ↔ ∃ caps, TgfShape nd line caps ∧ ∃ d ∈ caps, ¬ IsU64 d := by
  constructor
  · intro h
    rcases tgf_parseLine_all nd line with ⟨c', e, hs⟩ | ⟨_, e, hs⟩ | ⟨e, _⟩
    · rw [e] at h; cases h
    · exact ⟨_, hs⟩
    · rw [e] at h; cases h
  · rintro ⟨caps, hs, d, hd, hn⟩
    rcases tgf_parseLine_all nd line with ⟨c', e, hs'⟩ | ⟨_, e, _⟩ | ⟨e, h⟩
    · obtain ⟨caps', h1, h2⟩ := hs'.shape
      rw [h1.unique hs] at h2
      exact absurd (h2 d hd) hn
    · exact e
    · exact absurd hs (h _)

theorem tgf_parseLine_error {nd : Char → Bool} {line msg : Text} :
    Tgf.parseLine nd line = .done (.error msg) ↔ msg = line ∧ ∀ caps, ¬ TgfShape nd line caps := by
  constructor
  · intro h
    rcases tgf_parseLine_all nd line with ⟨c', e, hs⟩ | ⟨_, e, hs⟩ | ⟨e, hs⟩
    · rw [e] at h; cases h
    · rw [e] at h; cases h
    · rw [e] at h; cases h; exact ⟨rfl, hs⟩
  · rintro ⟨rfl, h⟩
    rcases tgf_parseLine_all nd msg with ⟨c', e, hs⟩ | ⟨_, e, hs, _⟩ | ⟨e, hs⟩
    · obtain ⟨caps, h1, _⟩ := hs.shape
      exact absurd h1 (h _)
    · exact absurd hs (h _)
    · exact e

section Files
variable {parse : Text → Run (Except Text GraphCommand)} {S : Text → GraphCommand → Prop}

/-- The active lines of a text that is read are commands. -/
theorem ReadsAs.good (hok : ∀ {l c}, parse l = .done (.ok c) ↔ S l c) {ls : List Text} {cs : List GraphCommand}
    (hr : ReadsAs parse ls cs) : ∀ l ∈ ls, ActiveLine l → ∃ c, S l c := by
  induction hr with
  | nil => simp
  | skip hn _ ih =>
    intro l hl ha
    rcases List.mem_cons.1 hl with rfl | hl
    · exact absurd ha hn
    · exact ih l hl ha
  | cons _ hp _ ih =>
    intro l hl ha
    rcases List.mem_cons.1 hl with rfl | hl
    · exact ⟨_, hok.1 hp⟩
    · exact ih l hl ha

open Classical in
theorem ReadsAs.iff_forall (hok : ∀ {l c}, parse l = .done (.ok c) ↔ S l c) (ls : List Text) (cs : List GraphCommand) :
    ReadsAs parse ls cs ↔ List.Forall₂ S (ls.filter fun l => decide (ActiveLine l)) cs := by
  constructor
  · intro h
    induction h with
    | nil => exact .nil
    | @skip l ls cs hl _ ih => rwa [List.filter_cons_of_neg (by simpa using hl)]
    | @cons l ls c cs hl hp _ ih =>
      rw [List.filter_cons_of_pos (by simpa using hl)]
      exact .cons (hok.1 hp) ih
  · intro h
    induction ls generalizing cs with
    | nil => cases h; exact .nil
    | cons l ls ih =>
      by_cases hl : ActiveLine l
      · rw [List.filter_cons_of_pos (by simpa using hl)] at h
        cases h with
        | cons hc h => exact .cons hl (hok.2 hc) (ih _ h)
      · rw [List.filter_cons_of_neg (by simpa using hl)] at h
        exact .skip hl (ih _ h)

end Files
end GC
