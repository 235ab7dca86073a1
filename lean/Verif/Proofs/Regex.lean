/-
Lemmas for C134: regular expressions.
-/
import Verif.Model.Regex
import Verif.Proofs.Text
import Verif.Spec.Regex
namespace GC
namespace Regex
open Text Format

variable {c : Char → Bool} {k : Nat → Text → Option Text → Option (List Text)}

theorem map_nil (o : Option Text) : o.map (· ++ []) = o := by cases o <;> simp

theorem greedy_shift (k : Nat → Text → Option Text → Option (List Text)) (pos : Nat) (x : Char) (s : Text) (o : Option Text) (m : Nat) :
    k (pos + 1 + m) (s.drop m) ((o.map (· ++ [x])).map (· ++ s.take m)) =
      k (pos + (m + 1)) ((x :: s).drop (m + 1)) (o.map (· ++ (x :: s).take (m + 1))) := by
  have h1 : pos + 1 + m = pos + (m + 1) := by omega
  rw [h1]
  congr 1
  cases o <;> simp

theorem greedy_eq_none {pos : Nat} {s : Text} {o : Option Text} :
    greedy c k pos s o = none ↔ ∀ n, n ≤ (s.takeWhile c).length → k (pos + n) (s.drop n) (o.map (· ++ s.take n)) = none := by
  induction s generalizing pos o with
  | nil =>
    simp only [greedy, List.takeWhile_nil, List.length_nil, Nat.le_zero, forall_eq, Nat.add_zero, List.drop_zero, List.take_zero, map_nil]
  | cons x s ih =>
    unfold greedy
    by_cases hx : c x = true
    · rw [if_pos hx, List.takeWhile_cons_of_pos hx]
      cases hg : greedy c k (pos + 1) s (o.map (· ++ [x])) with
      | some r =>
        refine ⟨fun h => (by cases h), fun h => ?_⟩
        have : greedy c k (pos + 1) s (o.map (· ++ [x])) = none :=
          ih.2 fun n hn => by rw [greedy_shift k]; exact h (n + 1) (by simpa using hn)
        rw [hg] at this; cases this
      | none =>
        have hn := ih.1 hg
        constructor
        · intro h n hle
          cases n with
          | zero => simpa [map_nil] using h
          | succ n => rw [← greedy_shift k]; exact hn n (by simpa using hle)
        · intro h
          simpa [map_nil] using h 0 (by simp)
    · rw [if_neg hx, List.takeWhile_cons_of_neg hx]
      constructor
      · intro h n hn
        obtain rfl : n = 0 := by simpa using hn
        simpa [map_nil] using h
      · intro h
        simpa [map_nil] using h 0 (by simp)

/-- The longest repetition comes first. -/
theorem greedy_eq_some {pos : Nat} {s : Text} {o : Option Text} {res : List Text} :
    greedy c k pos s o = some res ↔
      ∃ n, n ≤ (s.takeWhile c).length ∧ k (pos + n) (s.drop n) (o.map (· ++ s.take n)) = some res ∧
        ∀ m, n < m → m ≤ (s.takeWhile c).length → k (pos + m) (s.drop m) (o.map (· ++ s.take m)) = none := by
  induction s generalizing pos o res with
  | nil =>
    simp only [greedy, List.takeWhile_nil, List.length_nil, Nat.le_zero]
    constructor
    · intro h
      exact ⟨0, rfl, by simpa [map_nil] using h, fun m h1 h2 => by omega⟩
    · rintro ⟨n, rfl, h, _⟩
      simpa [map_nil] using h
  | cons x s ih =>
    unfold greedy
    by_cases hx : c x = true
    · rw [if_pos hx, List.takeWhile_cons_of_pos hx]
      cases hg : greedy c k (pos + 1) s (o.map (· ++ [x])) with
      | some r =>
        obtain ⟨n, h1, h2, h3⟩ := ih.1 hg
        rw [greedy_shift k] at h2
        have h3' : ∀ m, n + 1 < m → m ≤ (s.takeWhile c).length + 1 → k (pos + m) ((x :: s).drop m) (o.map (· ++ (x :: s).take m)) = none := by
          intro m h4 h5
          obtain ⟨m, rfl⟩ : ∃ m', m = m' + 1 := ⟨m - 1, by omega⟩
          rw [← greedy_shift k]
          exact h3 m (by omega) (by omega)
        constructor
        · rintro ⟨rfl⟩
          exact ⟨n + 1, by simpa using h1, h2, by simpa using h3'⟩
        · rintro ⟨n', h1', h2', h3''⟩
          rcases Nat.lt_trichotomy n' (n + 1) with hlt | rfl | hgt
          · rw [h3'' (n + 1) hlt (by simpa using h1)] at h2; cases h2
          · rw [h2] at h2'; exact h2'
          · rw [h3' n' hgt (by simpa using h1')] at h2'; cases h2'
      | none =>
        have hn := greedy_eq_none.1 hg
        constructor
        · intro h
          refine ⟨0, by simp, by simpa [map_nil] using h, fun m h1 h2 => ?_⟩
          obtain ⟨m, rfl⟩ : ∃ m', m = m' + 1 := ⟨m - 1, by omega⟩
          rw [← greedy_shift k]
          exact hn m (by simpa using h2)
        · rintro ⟨n, h1, h2, _⟩
          cases n with
          | zero => simpa [map_nil] using h2
          | succ n => rw [← greedy_shift k, hn n (by simpa using h1)] at h2; cases h2
    · rw [if_neg hx, List.takeWhile_cons_of_neg hx]
      constructor
      · intro h
        exact ⟨0, by simp, by simpa [map_nil] using h, fun m h1 h2 => by simp at h2; omega⟩
      · rintro ⟨n, h1, h2, _⟩
        obtain rfl : n = 0 := by simpa using h1
        simpa [map_nil] using h2

theorem take_takeWhile (p : Char → Bool) (s : Text) : s.take (s.takeWhile p).length = s.takeWhile p := by
  induction s with
  | nil => rfl
  | cons x s ih =>
    by_cases hx : p x = true
    · rw [List.takeWhile_cons_of_pos hx]; simp [ih]
    · rw [List.takeWhile_cons_of_neg hx]; rfl

theorem drop_takeWhile (p : Char → Bool) (s : Text) : s.drop (s.takeWhile p).length = s.dropWhile p := by
  induction s with
  | nil => rfl
  | cons x s ih =>
    by_cases hx : p x = true
    · rw [List.takeWhile_cons_of_pos hx, List.dropWhile_cons_of_pos hx]; simp [ih]
    · rw [List.takeWhile_cons_of_neg hx, List.dropWhile_cons_of_neg hx]; rfl

/-- If no shorter repetition lets the rest match, only the longest counts. -/
theorem greedy_max {pos : Nat} {s : Text} {o : Option Text}
    (h : k (pos + (s.takeWhile c).length) (s.dropWhile c) (o.map (· ++ s.takeWhile c)) ≠ none ∨
      ∀ n, n < (s.takeWhile c).length → k (pos + n) (s.drop n) (o.map (· ++ s.take n)) = none) :
    greedy c k pos s o = k (pos + (s.takeWhile c).length) (s.dropWhile c) (o.map (· ++ s.takeWhile c)) := by
  have e : k (pos + (s.takeWhile c).length) (s.dropWhile c) (o.map (· ++ s.takeWhile c)) =
      k (pos + (s.takeWhile c).length) (s.drop (s.takeWhile c).length) (o.map (· ++ s.take (s.takeWhile c).length)) := by
    rw [drop_takeWhile, take_takeWhile]
  cases hk : k (pos + (s.takeWhile c).length) (s.dropWhile c) (o.map (· ++ s.takeWhile c)) with
  | some r => exact greedy_eq_some.2 ⟨_, Nat.le_refl _, by rw [← e, hk], fun m h1 h2 => by omega⟩
  | none =>
    rw [hk] at h
    have h := h.resolve_left (fun h => h rfl)
    rw [Option.eq_none_iff_forall_not_mem]
    intro r hr
    obtain ⟨n, h1, h2, _⟩ := greedy_eq_some.1 hr
    rcases Nat.lt_or_eq_of_le h1 with hlt | rfl
    · rw [h n hlt] at h2; cases h2
    · rw [← e, hk] at h2; cases h2

/-! ### The six patterns -/

variable {nd : Char → Bool}

theorem run_bol (r : List Tok) (caps : List Text) (s : Text) (o : Option Text) : run nd (.bol :: r) caps 0 s o = run nd r caps 0 s o := by
  simp [run]

/-- A pattern that begins with `^` matches at the beginning only. -/
theorem search_bol (r : List Tok) (s : Text) : search nd (.bol :: r) 0 s = run nd r [] 0 s none := by
  have hlate : ∀ (s : Text) (pos : Nat), search nd (.bol :: r) (pos + 1) s = none := by
    intro s
    induction s with
    | nil => intro pos; simp [search, run]
    | cons x s ih => intro pos; simp [search, run, ih]
  cases s with
  | nil => simp [search, run]
  | cons x s =>
    unfold search
    rw [run_bol, hlate]
    cases run nd r [] 0 (x :: s) none <;> rfl

/-- Characters that stand for themselves. -/
theorem run_lits (kw : Text) (r : List Tok) (caps : List Text) (pos : Nat) (s : Text) :
    run nd (kw.map (fun c => .one (.lit c)) ++ r) caps pos s none =
      match afterKeyword kw s with
      | some rest => run nd r caps (pos + kw.length) rest none
      | none => none := by
  induction kw generalizing pos s with
  | nil => simp [afterKeyword]
  | cons c kw ih =>
    cases s with
    | nil => simp [afterKeyword, run]
    | cons x s =>
      rw [List.map_cons, List.cons_append, run]
      simp only [Option.map_none, Cls.has]
      rw [ih]
      by_cases hx : x = c
      · subst hx
        have e : pos + 1 + kw.length = pos + (x :: kw).length := by simp; omega
        rw [e]
        simp [afterKeyword]
      · simp [afterKeyword, hx, Ne.symm hx]

/-- One or more characters of a class, where nothing shorter will do. -/
theorem run_plus {cl : Cls} {r : List Tok} {caps : List Text} {pos : Nat} {s : Text} {o : Option Text}
    (h : run nd r caps (pos + (s.takeWhile (cl.has nd)).length) (s.dropWhile (cl.has nd)) (o.map (· ++ s.takeWhile (cl.has nd))) ≠ none ∨
      ∀ n, n < (s.takeWhile (cl.has nd)).length → 0 < n → run nd r caps (pos + n) (s.drop n) (o.map (· ++ s.take n)) = none) :
    run nd (.plus cl :: r) caps pos s o =
      if s.takeWhile (cl.has nd) = [] then none
      else run nd r caps (pos + (s.takeWhile (cl.has nd)).length) (s.dropWhile (cl.has nd)) (o.map (· ++ s.takeWhile (cl.has nd))) := by
  cases s with
  | nil => simp [run]
  | cons x s =>
    rw [run]
    by_cases hx : cl.has nd x = true
    · have hsh : ∀ m, run nd r caps (pos + 1 + m) (s.drop m) ((o.map (· ++ [x])).map (· ++ s.take m)) = _ := greedy_shift (run nd r caps) pos x s o
      have e : run nd r caps (pos + 1 + (s.takeWhile (cl.has nd)).length) (s.dropWhile (cl.has nd)) ((o.map (· ++ [x])).map (· ++ s.takeWhile (cl.has nd))) =
          run nd r caps (pos + ((x :: s).takeWhile (cl.has nd)).length) ((x :: s).dropWhile (cl.has nd)) (o.map (· ++ (x :: s).takeWhile (cl.has nd))) := by
        have := hsh (s.takeWhile (cl.has nd)).length
        rw [drop_takeWhile, take_takeWhile] at this
        rw [this, List.takeWhile_cons_of_pos hx, List.dropWhile_cons_of_pos hx, List.drop_succ_cons, List.take_succ_cons, drop_takeWhile, take_takeWhile]
        rfl
      rw [if_pos hx, greedy_max, e, if_neg (by rw [List.takeWhile_cons_of_pos hx]; simp)]
      rw [e]
      refine h.imp_right fun h n hn => ?_
      rw [hsh]
      exact h (n + 1) (by rw [List.takeWhile_cons_of_pos hx]; simpa using hn) (by omega)
    · rw [if_neg hx, List.takeWhile_cons_of_neg hx, if_pos rfl]

theorem mem_takeWhile_next {p : Char → Bool} {s : Text} {n : Nat} (h : n < (s.takeWhile p).length) : ∃ x t, s.drop n = x :: t ∧ p x = true := by
  induction s generalizing n with
  | nil => simp at h
  | cons x s ih =>
    by_cases hx : p x = true
    · cases n with
      | zero => exact ⟨x, s, rfl, hx⟩
      | succ n =>
        rw [List.takeWhile_cons_of_pos hx] at h
        exact ih (by simpa using h)
    · rw [List.takeWhile_cons_of_neg hx] at h; simp at h

/-- `(\d+)` when the rest of the pattern cannot begin with a digit. -/
theorem run_digits {r : List Tok} {caps : List Text} {pos : Nat} {s : Text}
    (h : ∀ caps pos x t, isDigit nd x = true → run nd r caps pos (x :: t) none = none) :
    run nd (.opn :: .plus .digit :: .cls :: r) caps pos s none =
      if s.takeWhile (isDigit nd) = [] then none
      else run nd r (caps ++ [s.takeWhile (isDigit nd)]) (pos + (s.takeWhile (isDigit nd)).length) (s.dropWhile (isDigit nd)) none := by
  rw [run, run_plus]
  · show (if s.takeWhile (isDigit nd) = [] then none else _) = _
    simp only [run, Option.map_some, Option.getD_some, List.nil_append]
    rfl
  · refine .inr fun n hn _ => ?_
    obtain ⟨x, t, hx, hd⟩ := mem_takeWhile_next hn
    rw [run, hx]
    exact h _ _ x t hd

theorem run_eol (caps : List Text) (pos : Nat) (s : Text) : run nd [.eol] caps pos s none = if s = [] then some caps else none := by
  simp [run]

theorem dropWhile_eq_nil {p : Char → Bool} {s : Text} (h : s.dropWhile p = []) : s.takeWhile p = s ∧ s.all p = true := by
  induction s with
  | nil => exact ⟨rfl, rfl⟩
  | cons x s ih =>
    by_cases hx : p x = true
    · rw [List.dropWhile_cons_of_pos hx] at h
      rw [List.takeWhile_cons_of_pos hx, (ih h).1]
      exact ⟨rfl, by rw [List.all_cons, hx, (ih h).2]; rfl⟩
    · rw [List.dropWhile_cons_of_neg hx] at h; cases h

theorem dropWhile_of_all {p : Char → Bool} {s : Text} (h : s.all p = true) : s.dropWhile p = [] := by
  induction s with
  | nil => rfl
  | cons x s ih =>
    rw [List.all_cons, Bool.and_eq_true] at h
    rw [List.dropWhile_cons_of_pos h.1, ih h.2]

/-- `(\d+)$`. -/
theorem run_last (caps : List Text) (pos : Nat) (s : Text) :
    run nd [.opn, .plus .digit, .cls, .eol] caps pos s none = if !s.isEmpty && s.all (isDigit nd) then some (caps ++ [s]) else none := by
  rw [run_digits (fun caps pos x t _ => by rw [run_eol]; rfl), run_eol]
  by_cases ha : s.all (isDigit nd) = true
  · have h := dropWhile_of_all ha
    rw [h, (dropWhile_eq_nil h).1, ha, if_pos rfl]
    cases s <;> simp
  · have h : s.dropWhile (isDigit nd) ≠ [] := fun h => ha (dropWhile_eq_nil h).2
    rw [if_neg h, eq_false_of_ne_true ha]
    simp

/-- `^<kw>(\d+)$`. -/
theorem one_eq (kw line : Text) :
    search nd (.bol :: (kw.map (fun c => .one (.lit c)) ++ [.opn, .plus .digit, .cls, .eol])) 0 line = (matchOne nd kw line).map fun d => [d] := by
  rw [search_bol, run_lits]
  unfold matchOne
  cases afterKeyword kw line with
  | none => rfl
  | some rest =>
    simp only
    rw [run_last]
    split <;> rfl

/-- `(\d+)\s+` before a group of digits. -/
theorem run_first (r : List Tok) (caps : List Text) (pos : Nat) (s : Text) :
    run nd (.opn :: .plus .digit :: .cls :: .plus .space :: .opn :: .plus .digit :: r) caps pos s none =
      if s.takeWhile (isDigit nd) = [] ∨ (s.dropWhile (isDigit nd)).takeWhile isWhite = [] then none
      else run nd (.opn :: .plus .digit :: r) (caps ++ [s.takeWhile (isDigit nd)])
        (pos + (s.takeWhile (isDigit nd)).length + ((s.dropWhile (isDigit nd)).takeWhile isWhite).length) ((s.dropWhile (isDigit nd)).dropWhile isWhite) none := by
  rw [run_digits]
  · by_cases h1 : s.takeWhile (isDigit nd) = []
    · rw [if_pos h1, if_pos (.inl h1)]
    · rw [if_neg h1, run_plus]
      · show (if (s.dropWhile (isDigit nd)).takeWhile isWhite = [] then none else _) = _
        by_cases h2 : (s.dropWhile (isDigit nd)).takeWhile isWhite = []
        · rw [if_pos h2, if_pos (.inr h2)]
        · rw [if_neg h2, if_neg (not_or.2 ⟨h1, h2⟩)]
          rfl
      · refine .inr fun n hn _ => ?_
        obtain ⟨x, t, hx, hw⟩ := mem_takeWhile_next hn
        rw [hx, run, run, if_neg]
        show ¬ isDigit nd x = true
        rw [not_digit_of_white hw]
        simp
  · intro caps pos x t hx
    rw [run, if_neg]
    show ¬ isWhite x = true
    rw [not_white_of_digit hx]
    simp

/-- `^<kw>(\d+)\s+(\d+)$`. -/
theorem two_eq (kw line : Text) :
    search nd (.bol :: (kw.map (fun c => .one (.lit c)) ++ [.opn, .plus .digit, .cls, .plus .space, .opn, .plus .digit, .cls, .eol])) 0 line =
      (matchTwo nd kw line).map fun p => [p.1, p.2] := by
  rw [search_bol, run_lits]
  unfold matchTwo
  cases afterKeyword kw line with
  | none => rfl
  | some rest =>
    simp only
    rw [run_first, run_last]
    by_cases h1 : rest.takeWhile (isDigit nd) = []
    · simp [h1]
    · by_cases h2 : (rest.dropWhile (isDigit nd)).takeWhile isWhite = []
      · simp [h2]
      · rw [if_neg (not_or.2 ⟨h1, h2⟩)]
        have e1 : (rest.takeWhile (isDigit nd)).isEmpty = false := by simpa using h1
        have e2 : ((rest.dropWhile (isDigit nd)).takeWhile isWhite).isEmpty = false := by simpa using h2
        rw [e1, e2]
        simp only [Bool.not_false, Bool.true_and]
        split <;> rfl

/-- `(.*)$`. -/
theorem run_any (caps : List Text) (pos : Nat) (s : Text) :
    run nd [.opn, .star .any, .cls, .eol] caps pos s none = if s.all (fun c => c ≠ '\n') then some (caps ++ [s]) else none := by
  have hk : ∀ pos (s : Text) o, run nd [.cls, .eol] caps pos s o = if s = [] then some (caps ++ [o.getD []]) else none := by
    intro pos s o; rw [run, run_eol]
  have hany : (fun c : Char => decide (c ≠ '\n')) = Cls.any.has nd := by funext c; simp [Cls.has, bne, BEq.beq]
  rw [run, run, greedy_max]
  · rw [hk, hany]
    by_cases ha : s.all (Cls.any.has nd) = true
    · have h := dropWhile_of_all ha
      rw [if_pos h, if_pos ha, (dropWhile_eq_nil h).1]
      simp
    · rw [if_neg ha, if_neg fun h => ha (dropWhile_eq_nil h).2]
  · refine .inr fun n hn => ?_
    obtain ⟨x, t, hx, _⟩ := mem_takeWhile_next hn
    rw [hk, hx, if_neg (by simp)]

/-- `(\d+)(.*)$`. -/
theorem run_digits_any (caps : List Text) (pos : Nat) (s : Text) :
    run nd [.opn, .plus .digit, .cls, .opn, .star .any, .cls, .eol] caps pos s none =
      if s.takeWhile (isDigit nd) ≠ [] ∧ (s.dropWhile (isDigit nd)).all (fun c => c ≠ '\n') then
        some (caps ++ [s.takeWhile (isDigit nd)] ++ [s.dropWhile (isDigit nd)]) else none := by
  have hk : ∀ pos (s : Text) o, run nd [.cls, .opn, .star .any, .cls, .eol] caps pos s o =
      if s.all (fun c => c ≠ '\n') then some (caps ++ [o.getD []] ++ [s]) else none := by
    intro pos s o; rw [run, run_any]
  rw [run, run_plus]
  · rw [hk]
    show (if s.takeWhile (isDigit nd) = [] then none else if (s.dropWhile (isDigit nd)).all _ = true then _ else _) = _
    by_cases h1 : s.takeWhile (isDigit nd) = []
    · simp [h1]
    · by_cases h2 : (s.dropWhile (isDigit nd)).all (fun c => decide (c ≠ '\n')) = true
      · rw [if_neg h1, if_pos h2, if_pos ⟨h1, h2⟩]
        rfl
      · rw [if_neg h1, if_neg h2, if_neg (fun h => h2 h.2)]
  · by_cases h2 : (s.dropWhile (isDigit nd)).all (fun c => decide (c ≠ '\n')) = true
    · refine .inl ?_
      rw [hk]
      have h2' : (s.dropWhile (Cls.digit.has nd)).all (fun c => decide (c ≠ '\n')) = true := h2
      rw [if_pos h2']
      simp
    · refine .inr fun n hn _ => ?_
      rw [hk, if_neg]
      intro ha
      apply h2
      rw [← drop_takeWhile, List.all_eq_true]
      intro x hx
      have hle : n ≤ (s.takeWhile (isDigit nd)).length := Nat.le_of_lt hn
      obtain ⟨m, hm⟩ := Nat.exists_eq_add_of_le hle
      rw [hm, ← List.drop_drop] at hx
      exact List.all_eq_true.1 ha x (List.mem_of_mem_drop hx)

theorem vertex_eq (line : Text) :
    (search nd [.bol, .opn, .plus .digit, .cls, .opn, .star .any, .cls, .eol] 0 line).map (fun l => l.take 1) = (Tgf.matchVertex nd line).map fun d => [d] := by
  rw [search_bol, run_digits_any]
  unfold Tgf.matchVertex
  simp only
  by_cases h1 : line.takeWhile (isDigit nd) = []
  · simp [h1]
  · have e1 : (line.takeWhile (isDigit nd)).isEmpty = false := by simpa using h1
    rw [e1]
    by_cases h2 : (line.dropWhile (isDigit nd)).all (fun c => decide (c ≠ '\n')) = true
    · rw [if_pos ⟨h1, h2⟩, h2]; rfl
    · rw [if_neg (fun h => h2 h.2), eq_false_of_ne_true h2]; rfl

theorem edge_eq (line : Text) :
    (search nd [.bol, .opn, .plus .digit, .cls, .plus .space, .opn, .plus .digit, .cls, .opn, .star .any, .cls, .eol] 0 line).map (fun l => l.take 2) =
      (Tgf.matchEdge nd line).map fun p => [p.1, p.2] := by
  rw [search_bol, run_first, run_digits_any]
  unfold Tgf.matchEdge
  simp only
  by_cases h1 : line.takeWhile (isDigit nd) = []
  · simp [h1]
  · by_cases h2 : (line.dropWhile (isDigit nd)).takeWhile isWhite = []
    · simp [h2]
    · rw [if_neg (not_or.2 ⟨h1, h2⟩)]
      have e1 : (line.takeWhile (isDigit nd)).isEmpty = false := by simpa using h1
      have e2 : ((line.dropWhile (isDigit nd)).takeWhile isWhite).isEmpty = false := by simpa using h2
      rw [e1, e2]
      generalize (line.dropWhile (isDigit nd)).dropWhile isWhite = r2
      by_cases h3 : r2.takeWhile (isDigit nd) = []
      · simp [h3]
      · have e3 : (r2.takeWhile (isDigit nd)).isEmpty = false := by simpa using h3
        rw [e3]
        by_cases h4 : (r2.dropWhile (isDigit nd)).all (fun c => decide (c ≠ '\n')) = true
        · rw [if_pos ⟨h3, h4⟩, h4]; rfl
        · rw [if_neg (fun h => h4 h.2), eq_false_of_ne_true h4]; rfl

/-! ### What a match is -/

theorem all_take_takeWhile {p : Char → Bool} {s : Text} {n : Nat} (h : n ≤ (s.takeWhile p).length) : ∀ x ∈ s.take n, p x = true := by
  induction s generalizing n with
  | nil => simp
  | cons x s ih =>
    cases n with
    | zero => simp
    | succ n =>
      by_cases hx : p x = true
      · rw [List.takeWhile_cons_of_pos hx] at h
        intro y hy
        rcases List.mem_cons.1 (by simpa using hy : y ∈ x :: s.take n) with rfl | hy
        · exact hx
        · exact ih (by simpa using h) y hy
      · rw [List.takeWhile_cons_of_neg hx] at h; simp at h

theorem le_takeWhile {p : Char → Bool} {w t : Text} (h : ∀ x ∈ w, p x = true) : w.length ≤ ((w ++ t).takeWhile p).length := by
  induction w with
  | nil => simp
  | cons x w ih =>
    rw [List.cons_append, List.takeWhile_cons_of_pos (h x (by simp))]
    simpa using ih fun y hy => h y (by simp [hy])

theorem run_sound {toks : List Tok} {caps : List Text} {before s : Text} {o : Option Text} {res : List Text}
    (h : run nd toks caps before.length s o = some res) :
    ∃ ps after, s = ps.flatten ++ after ∧ Fits nd toks ps before after ∧ res = caps ++ groups o toks ps := by
  induction toks generalizing caps before s o with
  | nil =>
    rw [run] at h
    cases h
    exact ⟨[], s, rfl, .nil, by simp [groups]⟩
  | cons t toks ih =>
    have hgreedy : ∀ {c : Cls} {before s : Text} {o : Option Text}, greedy (c.has nd) (run nd toks caps) before.length s o = some res →
        ∃ w ps after, s = w ++ (ps.flatten ++ after) ∧ (∀ x ∈ w, c.has nd x = true) ∧ Fits nd toks ps (before ++ w) after ∧ res = caps ++ groups (o.map (· ++ w)) toks ps := by
      intro c before s o h
      obtain ⟨n, hn, hr, _⟩ := greedy_eq_some.1 h
      have hlen : before.length + n = (before ++ s.take n).length := by
        have := (List.takeWhile_prefix (p := c.has nd) (l := s)).length_le
        rw [List.length_append, List.length_take]; omega
      rw [hlen] at hr
      obtain ⟨ps, after, h1, h2, h3⟩ := ih hr
      exact ⟨s.take n, ps, after, by rw [← h1, List.take_append_drop], all_take_takeWhile hn, h2, h3⟩
    cases t with
    | bol =>
      rw [run] at h
      split at h
      · rename_i h0
        obtain ⟨ps, after, h1, h2, h3⟩ := ih h
        have hb : before = [] := List.eq_nil_of_length_eq_zero h0
        exact ⟨[] :: ps, after, h1, .cons ⟨rfl, hb⟩ (by rwa [List.append_nil]), by rw [h3]; simp [groups]⟩
      · cases h
    | eol =>
      rw [run] at h
      split at h
      · rename_i h0
        obtain ⟨ps, after, h1, h2, h3⟩ := ih h
        exact ⟨[] :: ps, after, h1, .cons ⟨rfl, by rw [← h1, h0]⟩ (by rwa [List.append_nil]), by rw [h3]; simp [groups]⟩
      · cases h
    | opn =>
      rw [run] at h
      obtain ⟨ps, after, h1, h2, h3⟩ := ih h
      exact ⟨[] :: ps, after, h1, .cons rfl (by rwa [List.append_nil]), by rw [h3]; simp [groups]⟩
    | cls =>
      rw [run] at h
      obtain ⟨ps, after, h1, h2, h3⟩ := ih h
      exact ⟨[] :: ps, after, h1, .cons rfl (by rwa [List.append_nil]), by rw [h3]; simp [groups]⟩
    | one c =>
      cases s with
      | nil => rw [run] at h; cases h
      | cons x s =>
        rw [run] at h
        split at h
        · rename_i hx
          have hl : before.length + 1 = (before ++ [x]).length := by simp
          rw [hl] at h
          obtain ⟨ps, after, h1, h2, h3⟩ := ih h
          exact ⟨[x] :: ps, after, by rw [h1]; rfl, .cons ⟨x, rfl, hx⟩ h2, by rw [h3]; simp [groups]⟩
        · cases h
    | plus c =>
      cases s with
      | nil => rw [run] at h; cases h
      | cons x s =>
        rw [run] at h
        split at h
        · rename_i hx
          have hl : before.length + 1 = (before ++ [x]).length := by simp
          rw [hl] at h
          obtain ⟨w, ps, after, h1, hw, h2, h3⟩ := hgreedy h
          refine ⟨(x :: w) :: ps, after, by rw [h1]; simp, .cons ⟨by simp, ?_⟩ (by simpa using h2), ?_⟩
          · intro y hy
            rcases List.mem_cons.1 hy with rfl | hy
            · exact hx
            · exact hw y hy
          · rw [h3]
            cases o <;> simp [groups]
        · cases h
    | star c =>
      rw [run] at h
      obtain ⟨w, ps, after, h1, hw, h2, h3⟩ := hgreedy h
      exact ⟨w :: ps, after, by rw [h1]; simp, .cons hw h2, by rw [h3]; simp [groups]⟩

theorem run_complete {toks : List Tok} {ps : List Text} {before after : Text} (h : Fits nd toks ps before after) (caps : List Text) (o : Option Text) :
    run nd toks caps before.length (ps.flatten ++ after) o ≠ none := by
  induction h generalizing caps o with
  | nil => simp [run]
  | @cons t toks p ps before after hp _ ih =>
    have hlen : (before ++ p).length = before.length + p.length := List.length_append
    have hgreedy : ∀ (c : Cls) (b : Nat) (w : Text) (o : Option Text), (∀ x ∈ w, c.has nd x = true) → b + w.length = (before ++ p).length →
        greedy (c.has nd) (run nd toks caps) b (w ++ (ps.flatten ++ after)) o ≠ none := by
      intro c b w o hw hb hn
      have := greedy_eq_none.1 hn w.length (le_takeWhile hw)
      rw [hb, List.drop_left] at this
      exact ih _ _ this
    rw [List.flatten_cons, List.append_assoc]
    cases t with
    | bol =>
      obtain ⟨rfl, rfl⟩ := hp
      rw [List.length_nil, run, if_pos rfl]
      exact ih caps o
    | eol =>
      obtain ⟨rfl, he⟩ := hp
      rw [List.nil_append, run, if_pos he]
      simpa using ih caps o
    | opn =>
      obtain rfl := hp
      rw [List.nil_append, run]
      simpa using ih caps (some [])
    | cls =>
      obtain rfl := hp
      rw [List.nil_append, run]
      simpa using ih (caps ++ [o.getD []]) none
    | one c =>
      obtain ⟨x, rfl, hx⟩ := hp
      rw [List.singleton_append, run, if_pos hx]
      simpa using ih caps (o.map (· ++ [x]))
    | plus c =>
      obtain ⟨hne, hp⟩ := hp
      cases p with
      | nil => exact absurd rfl hne
      | cons x w =>
        rw [List.cons_append, run, if_pos (hp x (by simp))]
        exact hgreedy c _ w _ (fun y hy => hp y (by simp [hy])) (by rw [hlen, List.length_cons]; omega)
    | star c =>
      rw [run]
      exact hgreedy c _ p _ hp hlen.symm

theorem search_sound {toks : List Tok} {before s : Text} {res : List Text} (h : search nd toks before.length s = some res) :
    ∃ skipped ps after, s = skipped ++ (ps.flatten ++ after) ∧ Fits nd toks ps (before ++ skipped) after ∧ res = groups none toks ps ∧
      ∀ n, n < skipped.length → ∀ ps' after', s.drop n = ps'.flatten ++ after' → ¬ Fits nd toks ps' (before ++ s.take n) after' := by
  induction s generalizing before with
  | nil =>
    rw [search] at h
    obtain ⟨ps, after, h1, h2, h3⟩ := run_sound h
    exact ⟨[], ps, after, h1, by simpa using h2, by simpa using h3, by simp⟩
  | cons x s ih =>
    rw [search] at h
    cases hr : run nd toks [] before.length (x :: s) none with
    | some r =>
      rw [hr] at h
      cases h
      obtain ⟨ps, after, h1, h2, h3⟩ := run_sound hr
      exact ⟨[], ps, after, h1, by simpa using h2, by simpa using h3, by simp⟩
    | none =>
      rw [hr] at h
      have hl : before.length + 1 = (before ++ [x]).length := by simp
      simp only at h
      rw [hl] at h
      obtain ⟨sk, ps, after, h1, h2, h3, h4⟩ := ih h
      refine ⟨x :: sk, ps, after, by rw [h1]; rfl, by simpa using h2, h3, fun n hn ps' after' he hf => ?_⟩
      cases n with
      | zero =>
        have he' : x :: s = ps'.flatten ++ after' := he
        have := run_complete hf [] none
        rw [← he'] at this
        rw [List.take_zero, List.append_nil] at this
        exact this hr
      | succ n => exact h4 n (by simpa using hn) ps' after' (by simpa using he) (by simpa using hf)

theorem search_complete {toks : List Tok} {before skipped after : Text} {ps : List Text} (h : Fits nd toks ps (before ++ skipped) after) :
    search nd toks before.length (skipped ++ (ps.flatten ++ after)) ≠ none := by
  induction skipped generalizing before with
  | nil =>
    have := run_complete h [] none
    rw [List.append_nil] at this
    rw [List.nil_append]
    cases he : ps.flatten ++ after with
    | nil => rw [he] at this; rw [search]; exact this
    | cons x s =>
      rw [he] at this
      rw [search]
      obtain ⟨r, hr⟩ := Option.ne_none_iff_exists'.1 this
      rw [hr]
      simp
  | cons x sk ih =>
    rw [List.cons_append, search]
    have hl : before.length + 1 = (before ++ [x]).length := by simp
    cases run nd toks [] before.length (x :: (sk ++ (ps.flatten ++ after))) none with
    | some r => simp
    | none =>
      simp only
      rw [hl]
      exact ih (by simpa using h)

end Regex
end GC
