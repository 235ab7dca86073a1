/- Lemmas about numerals, character classes and line splitting. -/
import Verif.Spec.Format
import Mathlib.Data.List.Basic
import Mathlib.Data.List.Induction
namespace GC
open Text Format

theorem toNat_digitChar {d : Nat} (h : d < 10) : (digitChar d).toNat = 48 + d := by
  have : ∀ d : Fin 10, (digitChar d.1).toNat = 48 + d.1 := by decide
  exact this ⟨d, h⟩

theorem isAsciiDigit_iff {c : Char} : isAsciiDigit c = true ↔ 48 ≤ c.toNat ∧ c.toNat ≤ 57 := by
  simp [isAsciiDigit]

theorem isAsciiDigit_digitChar {d : Nat} (h : d < 10) : isAsciiDigit (digitChar d) = true := by
  rw [isAsciiDigit_iff, toNat_digitChar h]; omega

theorem digitChar_of_ascii {c : Char} (h : isAsciiDigit c = true) :
    c.toNat - 48 < 10 ∧ c = digitChar (c.toNat - 48) := by
  rw [isAsciiDigit_iff] at h
  refine ⟨by omega, ?_⟩
  unfold digitChar
  have : 48 + (c.toNat - 48) = c.toNat := by omega
  rw [this, Char.ofNat_toNat]

theorem digitOf_iff {c : Char} {d : Nat} : DigitOf c d ↔ d < 10 ∧ c = digitChar d := by
  unfold DigitOf
  constructor
  · intro h
    simp only [List.mem_cons, Prod.mk.injEq, List.not_mem_nil, or_false] at h
    rcases h with ⟨rfl, rfl⟩ | ⟨rfl, rfl⟩ | ⟨rfl, rfl⟩ | ⟨rfl, rfl⟩ | ⟨rfl, rfl⟩ | ⟨rfl, rfl⟩ | ⟨rfl, rfl⟩ | ⟨rfl, rfl⟩ | ⟨rfl, rfl⟩ | ⟨rfl, rfl⟩ <;>
      decide
  · rintro ⟨h, rfl⟩
    have : ∀ d < 10, (digitChar d, d) ∈
      [('0', 0), ('1', 1), ('2', 2), ('3', 3), ('4', 4), ('5', 5), ('6', 6), ('7', 7), ('8', 8), ('9', 9)] := by decide
    exact this d h

theorem isWhite_iff {c : Char} : isWhite c = true ↔ White c := by
  unfold isWhite White
  simp only [Bool.or_eq_true, Bool.and_eq_true, decide_eq_true_eq, beq_iff_eq, List.mem_cons, List.not_mem_nil, or_false]
  omega

theorem isWhite_all {w : Text} : (∀ c ∈ w, isWhite c = true) ↔ ∀ c ∈ w, White c :=
  forall_congr' fun _ => imp_congr_right fun _ => isWhite_iff

theorem Blank.isWhite {w : Text} (h : Blank w) : ∀ c ∈ w, isWhite c = true := isWhite_all.2 h.2

theorem not_white_of_ascii {c : Char} (h : isAsciiDigit c = true) : isWhite c = false := by
  rw [isAsciiDigit_iff] at h
  unfold isWhite
  simp only [Bool.or_eq_false_iff, Bool.and_eq_false_iff, decide_eq_false_iff_not, beq_eq_false_iff_ne]
  omega

theorem isDigit_of_ascii {nd : Char → Bool} {c : Char} (h : isAsciiDigit c = true) : isDigit nd c = true := by
  simp [isDigit, h]

theorem not_white_of_digit {nd : Char → Bool} {c : Char} (h : isDigit nd c = true) : isWhite c = false := by
  unfold isDigit at h
  simp only [Bool.or_eq_true, Bool.and_eq_true, Bool.not_eq_true'] at h
  rcases h with h | h
  · exact not_white_of_ascii h
  · exact h.1.2

theorem not_digit_of_white {nd : Char → Bool} {c : Char} (h : isWhite c = true) : isDigit nd c = false := by
  by_contra hc
  rw [not_white_of_digit (nd := nd) (by simpa using hc)] at h
  cases h

/-- ASCII characters that are digits for the regex class are ASCII digits. -/
theorem isDigit_small {nd : Char → Bool} {c : Char} (h : c.toNat < 128) : isDigit nd c = isAsciiDigit c := by
  unfold isDigit
  have : decide (128 ≤ c.toNat) = false := by simp; omega
  simp [this]

theorem digitsVal_snoc (s : Text) (c : Char) : digitsVal (s ++ [c]) = digitsVal s * 10 + (c.toNat - 48) := by
  simp [digitsVal]

theorem numeral_iff {ds : Text} {n : Nat} :
    Numeral ds n ↔ ds ≠ [] ∧ (∀ c ∈ ds, isAsciiDigit c = true) ∧ digitsVal ds = n := by
  constructor
  · intro h
    induction h with
    | digit hd =>
      obtain ⟨hd', rfl⟩ := digitOf_iff.1 hd
      refine ⟨by simp, ?_, ?_⟩
      · simpa using isAsciiDigit_digitChar hd'
      · simp [digitsVal, toNat_digitChar hd']
    | snoc _ hd ih =>
      obtain ⟨hd', rfl⟩ := digitOf_iff.1 hd
      refine ⟨by simp, ?_, ?_⟩
      · intro c hc
        rw [List.mem_append, List.mem_singleton] at hc
        rcases hc with hc | rfl
        · exact ih.2.1 c hc
        · exact isAsciiDigit_digitChar hd'
      · rw [digitsVal_snoc, ih.2.2, toNat_digitChar hd']; omega
  · rintro ⟨h1, h2, h3⟩
    induction ds using List.reverseRecOn generalizing n with
    | nil => exact absurd rfl h1
    | append_singleton ds c ih =>
      obtain ⟨hlt, hc⟩ := digitChar_of_ascii (h2 c (by simp))
      rw [digitsVal_snoc] at h3
      by_cases hds : ds = []
      · subst hds
        simp only [digitsVal, List.foldl_nil] at h3
        rw [List.nil_append, hc, ← h3]
        have : 0 * 10 + (c.toNat - 48) = c.toNat - 48 := by omega
        rw [this]
        exact .digit (digitOf_iff.2 ⟨hlt, rfl⟩)
      · have := ih hds (fun x hx => h2 x (by simp [hx])) rfl
        have h4 := Numeral.snoc this (digitOf_iff.2 ⟨hlt, rfl⟩)
        rw [← hc] at h4
        rw [← h3]
        have e : digitsVal ds * 10 + (c.toNat - 48) = 10 * digitsVal ds + (c.toNat - 48) := by omega
        rw [e]
        exact h4

theorem Numeral.unique {ds : Text} {n m : Nat} (h1 : Numeral ds n) (h2 : Numeral ds m) : n = m := by
  rw [numeral_iff] at h1 h2
  exact h1.2.2.symm.trans h2.2.2

theorem Numeral.ne_nil {ds : Text} {n : Nat} (h : Numeral ds n) : ds ≠ [] := (numeral_iff.1 h).1

theorem Numeral.ascii {ds : Text} {n : Nat} (h : Numeral ds n) : ∀ c ∈ ds, isAsciiDigit c = true :=
  (numeral_iff.1 h).2.1

theorem Numeral.digits {ds : Text} {n : Nat} (nd : Char → Bool) (h : Numeral ds n) : Digits nd ds :=
  ⟨h.ne_nil, fun c hc => isDigit_of_ascii (h.ascii c hc)⟩

theorem numeral_showFuel (f n : Nat) (h : n < 10 ^ (f + 1)) : Numeral (showFuel (f + 1) n) n := by
  induction f generalizing n with
  | zero =>
    have : n < 10 := by simpa using h
    simp only [showFuel, this, if_true]
    exact .digit (digitOf_iff.2 ⟨this, rfl⟩)
  | succ f ih =>
    rw [showFuel]
    split
    · rename_i h; exact .digit (digitOf_iff.2 ⟨h, rfl⟩)
    · have h1 := ih (n / 10) (by rw [Nat.div_lt_iff_lt_mul (by omega)]; rw [← Nat.pow_succ]; exact h)
      have h2 := Numeral.snoc h1 (digitOf_iff.2 ⟨Nat.mod_lt n (by omega : 10 > 0), rfl⟩)
      rw [Nat.div_add_mod] at h2
      exact h2

theorem numeral_showU64 (x : UInt64) : Numeral (showU64 x) x.toNat := by
  apply numeral_showFuel
  have := x.toNat_lt
  have h2 : 2 ^ 64 < 10 ^ (19 + 1) := by decide
  omega

theorem denotes_showId (v : VertexId) : DenotesId (showId v) v := numeral_showU64 v.id

theorem parseDigits_eq {s : Text} {n : Nat} : parseDigits s = some n ↔ Numeral s n := by
  unfold parseDigits
  rw [numeral_iff]
  constructor
  · intro h
    split at h
    · rename_i hc
      simp only [Bool.and_eq_true, Bool.not_eq_true', List.isEmpty_eq_false_iff, List.all_eq_true] at hc
      exact ⟨hc.1, hc.2, Option.some.inj h⟩
    · cases h
  · rintro ⟨h1, h2, h3⟩
    rw [if_pos, h3]
    simp only [Bool.and_eq_true, Bool.not_eq_true', List.isEmpty_eq_false_iff, List.all_eq_true]
    exact ⟨h1, h2⟩

/-- `u64` parsing of a digit string: no sign. -/
theorem parseU64_of_no_plus {s : Text} {x : UInt64} (hs : s.head? ≠ some '+') :
    parseU64 s = some x ↔ Numeral s x.toNat := by
  have key : (match parseDigits s with
      | some n => if n < 2 ^ 64 then some (UInt64.ofNat n) else none
      | none => none) = some x ↔ Numeral s x.toNat := by
    constructor
    · intro h
      split at h
      · rename_i n hn
        split at h
        · rename_i hlt
          have := Option.some.inj h
          subst this
          rw [parseDigits_eq] at hn
          rw [UInt64.toNat_ofNat_of_lt' (by simpa using hlt)]
          exact hn
        · cases h
      · cases h
    · intro h
      rw [(parseDigits_eq).2 h]
      simp only [UInt64.toNat_lt, if_true, UInt64.ofNat_toNat]
  have e : stripPlus s = s := by
    unfold stripPlus
    split
    · simp at hs
    · rfl
  unfold parseU64
  rw [e]
  exact key

theorem Digits.head_ne_plus {nd : Char → Bool} {s : Text} (h : Digits nd s) : s.head? ≠ some '+' := by
  intro hc
  have := h.2 '+' (List.mem_of_mem_head? hc)
  rw [isDigit_small (by decide)] at this
  exact absurd this (by decide)

theorem captureId_done {nd : Char → Bool} {s : Text} (h : Digits nd s) {v : VertexId} :
    captureId s = .done v ↔ DenotesId s v := by
  unfold captureId DenotesId
  rw [← parseU64_of_no_plus h.head_ne_plus]
  cases parseU64 s with
  | none => simp [Run.unwrap]
  | some x =>
    simp only [Option.map_some, Run.unwrap, Run.done.injEq, Option.some.injEq]
    constructor
    · rintro rfl; rfl
    · intro h; subst h; rfl

theorem captureId_cases {nd : Char → Bool} {s : Text} (h : Digits nd s) :
    (∃ v, captureId s = .done v ∧ DenotesId s v) ∨ (captureId s = .panicked ∧ ¬ IsU64 s) := by
  cases hc : captureId s with
  | running => unfold captureId at hc; cases hp : parseU64 s <;> simp [hp, Run.unwrap] at hc
  | done v => exact .inl ⟨v, rfl, (captureId_done h).1 hc⟩
  | panicked =>
    refine .inr ⟨rfl, ?_⟩
    rintro ⟨n, hn, hs⟩
    have : DenotesId s ⟨UInt64.ofNat n⟩ := by
      unfold DenotesId
      rw [UInt64.toNat_ofNat_of_lt' (by simpa using hn)]
      exact hs
    rw [← captureId_done h, hc] at this
    cases this

theorem DenotesId.isU64 {s : Text} {v : VertexId} (h : DenotesId s v) : IsU64 s := ⟨_, v.id.toNat_lt, h⟩

theorem DenotesId.unique {s : Text} {u v : VertexId} (h1 : DenotesId s u) (h2 : DenotesId s v) : u = v := by
  have := Numeral.unique h1 h2
  cases u; cases v
  simp only [VertexId.mk.injEq]
  exact UInt64.toNat.inj this

/-! ### Splitting -/

theorem takeWhile_append_of_neg {α : Type} {p : α → Bool} {a b : List α} (ha : ∀ x ∈ a, p x = true)
    (hb : ∀ x, b.head? = some x → p x = false) : (a ++ b).takeWhile p = a ∧ (a ++ b).dropWhile p = b := by
  induction a with
  | nil =>
    cases b with
    | nil => simp
    | cons x b => simp [hb x rfl]
  | cons x a ih =>
    have := ih (fun y hy => ha y (by simp [hy]))
    simp [ha x (by simp), this.1, this.2]

theorem all_takeWhile {α : Type} (p : α → Bool) (l : List α) : ∀ x ∈ l.takeWhile p, p x = true := by
  induction l with
  | nil => simp
  | cons a l ih =>
    intro x hx
    rw [List.takeWhile_cons] at hx
    split at hx
    · rcases List.mem_cons.1 hx with rfl | hx
      · assumption
      · exact ih x hx
    · cases hx

theorem head_dropWhile {α : Type} (p : α → Bool) (l : List α) :
    ∀ x, (l.dropWhile p).head? = some x → p x = false := by
  induction l with
  | nil => simp
  | cons a l ih =>
    intro x hx
    rw [List.dropWhile_cons] at hx
    split at hx
    · exact ih x hx
    · simp at hx; subst hx; simpa using ‹¬ p a = true›

/-! ### Lines -/

theorem linesAux_append (cur s : Text) (h : ∀ c ∈ s, c ≠ '\n') (rest : Text) :
    linesAux cur (s ++ rest) = linesAux (cur ++ s) rest := by
  induction s generalizing cur with
  | nil => simp
  | cons c s ih =>
    have hc := h c (by simp)
    simp only [List.cons_append, linesAux, hc, if_false]
    rw [ih _ (fun x hx => h x (by simp [hx]))]
    simp

theorem stripCr_plain {l : Text} (h : PlainLine l) : stripCr l = l := by
  unfold stripCr
  rw [if_neg h.2]

theorem stripCr_crlf (l : Text) : stripCr (l ++ ['\r']) = l := by
  simp [stripCr]

theorem lines_newline (l : Text) (hl : ∀ c ∈ l, c ≠ '\n') (rest : Text) :
    lines (l ++ '\n' :: rest) = stripCr l :: lines rest := by
  unfold lines
  rw [linesAux_append _ _ hl]
  simp [linesAux]

theorem lines_no_newline (l : Text) (hl : ∀ c ∈ l, c ≠ '\n') : lines l = if l.isEmpty then [] else [l] := by
  unfold lines
  have := linesAux_append [] l hl []
  simp only [List.append_nil, List.nil_append] at this
  rw [this]
  rfl

/-- The lines of a newline terminated text do not depend on what follows. -/
theorem linesAux_terminated (cur s rest : Text) (h : s.getLast? = some '\n') :
    linesAux cur (s ++ rest) = linesAux cur s ++ linesAux [] rest := by
  induction s generalizing cur with
  | nil => simp at h
  | cons c s ih =>
    simp only [List.cons_append, linesAux]
    by_cases hs : s = []
    · subst hs
      simp only [List.getLast?_singleton, Option.some.injEq] at h
      subst h
      simp [linesAux]
    · have h' : s.getLast? = some '\n' := by
        rw [List.getLast?_cons] at h
        cases hh : s.getLast? with
        | none => rw [List.getLast?_eq_none_iff] at hh; exact absurd hh hs
        | some x => rw [hh] at h; simpa using h
      split
      · rw [ih _ h']; rfl
      · exact ih _ h'

theorem lines_append {s : Text} (h : NewlineTerminated s) (rest : Text) :
    lines (s ++ rest) = lines s ++ lines rest := by
  rcases h with rfl | h
  · simp [lines, linesAux]
  · exact linesAux_terminated [] s rest h

theorem lines_flatMap {ls : List Text} (h : ∀ l ∈ ls, PlainLine l) :
    lines (ls.flatMap fun l => l ++ ['\n']) = ls := by
  induction ls with
  | nil => rfl
  | cons l ls ih =>
    have hl := h l (by simp)
    simp only [List.flatMap_cons, List.append_assoc, List.singleton_append]
    rw [lines_newline l hl.1, stripCr_plain hl, ih fun x hx => h x (by simp [hx])]

theorem newlineTerminated_append {s t : Text} (hs : NewlineTerminated s) (ht : NewlineTerminated t) :
    NewlineTerminated (s ++ t) := by
  rcases ht with rfl | ht
  · simpa using hs
  · right
    rw [List.getLast?_append, ht]
    rfl

theorem newlineTerminated_flatMap {α : Type} (f : α → Text) (l : List α) :
    NewlineTerminated (l.flatMap fun x => f x ++ ['\n']) := by
  induction l with
  | nil => exact .inl rfl
  | cons a l ih =>
    rw [List.flatMap_cons]
    apply newlineTerminated_append _ ih
    right
    simp

/-! ### Comments -/

theorem isComment_iff {l : Text} : isComment l = true ↔ CommentLine l := by
  have h1 : ∀ l : Text, isComment l = true ↔ (l.dropWhile isWhite).head? = some '#' := by
    intro l
    unfold isComment trim
    generalize hd : l.dropWhile isWhite = m
    cases m with
    | nil => simp
    | cons c m =>
      have hc : isWhite c = false := head_dropWhile isWhite l c (by rw [hd]; rfl)
      have : ((c :: m).reverse.dropWhile isWhite).reverse.head? = some c := by
        rw [List.head?_reverse, List.reverse_cons]
        rw [List.dropWhile_append]
        split
        · simp [hc]
        · simp
      cases hh : ((c :: m).reverse.dropWhile isWhite).reverse with
      | nil => rw [hh] at this; simp at this
      | cons a t =>
        rw [hh] at this
        simp only [List.head?_cons, Option.some.injEq] at this
        subst this
        simp only [List.isPrefixOf, Bool.and_true, beq_iff_eq, List.head?_cons, Option.some.injEq]
        exact eq_comm
  rw [h1]
  constructor
  · intro h
    refine ⟨l.takeWhile isWhite, (l.dropWhile isWhite).tail, ?_, isWhite_all.1 (all_takeWhile _ _)⟩
    have : l.dropWhile isWhite = '#' :: (l.dropWhile isWhite).tail := by
      cases hh : l.dropWhile isWhite with
      | nil => rw [hh] at h; simp at h
      | cons a t => rw [hh] at h; simp at h; simp [h]
    conv_lhs => rw [← List.takeWhile_append_dropWhile (p := isWhite) (l := l)]
    rw [this]
    rfl
  · rintro ⟨w, rest, rfl, hw⟩
    rw [(takeWhile_append_of_neg (isWhite_all.2 hw) (by intro x hx; simp at hx; subst hx; decide)).2]
    rfl

theorem active_iff {l : Text} : (!l.isEmpty && !isComment l) = true ↔ ActiveLine l := by
  unfold ActiveLine
  rw [← isComment_iff]
  simp

end GC
