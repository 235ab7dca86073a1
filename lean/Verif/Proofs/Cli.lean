/-
Proofs about command lines.
-/
import Verif.Spec.Cli
import Mathlib.Data.List.Nodup
namespace GC
namespace Cli
open Text Clap

/-! ### Counting uses -/

/-- The matches after some more uses. -/
def ext (m : Matches) (us : List Use) : Matches := fun n =>
  if times us n = 0 then m n
  else match m n with
    | none => some ⟨times us n, given us n⟩
    | some x => some ⟨x.occurs + times us n, x.vals ++ given us n⟩

/-- Values added to an argument. -/
def addAll (m : Matches) (n : Text) (vals : List Text) : Matches := vals.foldl (fun m v => m.add n v) m

theorem times_append (us vs : List Use) (n : Text) : times (us ++ vs) n = times us n + times vs n := by
  simp [times, List.filter_append]

theorem given_append (us vs : List Use) (n : Text) : given (us ++ vs) n = given us n ++ given vs n := by
  simp [given, List.filter_append]

theorem given_nil_of_times {us : List Use} {n : Text} (h : times us n = 0) : given us n = [] := by
  unfold times at h; unfold given
  rw [List.length_eq_zero_iff] at h
  rw [h]; rfl

theorem ext_nil (m : Matches) : ext m [] = m := by
  funext n; simp [ext, times]

theorem ext_append (m : Matches) (us vs : List Use) : ext (ext m us) vs = ext m (us ++ vs) := by
  funext n
  unfold ext
  rw [times_append, given_append]
  by_cases h1 : times us n = 0 <;> by_cases h2 : times vs n = 0
  · simp [h1, h2]
  · simp [h1, h2, given_nil_of_times h1]
  · simp [h1, h2, given_nil_of_times h2]
  · cases hm : m n <;> simp [h1, h2, Nat.add_assoc]

theorem addAll_other {m : Matches} {n n' : Text} {vals : List Text} (h : n' ≠ n) : addAll m n vals n' = m n' := by
  induction vals generalizing m with
  | nil => rfl
  | cons v vs ih =>
    show addAll (m.add n v) n vs n' = _
    rw [ih]; simp [Matches.add, h]

theorem addAll_same {m : Matches} {n : Text} {vals : List Text} {x : Matched} (h : m n = some x) :
    addAll m n vals n = some ⟨x.occurs, x.vals ++ vals⟩ := by
  induction vals generalizing m x with
  | nil => simp [addAll, h]
  | cons v vs ih =>
    show addAll (m.add n v) n vs n = _
    rw [ih (x := ⟨x.occurs, x.vals ++ [v]⟩) (by simp [Matches.add, h])]
    simp

theorem addAll_append (m : Matches) (n : Text) (vs ws : List Text) : addAll (addAll m n vs) n ws = addAll m n (vs ++ ws) := by
  simp [addAll, List.foldl_append]

theorem times_single (a : Arg) (vals : List Text) (n : Text) : times [⟨a, vals⟩] n = if a.name = n then 1 else 0 := by
  by_cases h : a.name = n <;> simp [times, h]

theorem given_single (a : Arg) (vals : List Text) (n : Text) : given [⟨a, vals⟩] n = if a.name = n then vals else [] := by
  by_cases h : a.name = n <;> simp [given, h]

/-- Naming an argument and giving it values is one use. -/
theorem addAll_inc (m : Matches) (a : Arg) (vals : List Text) : addAll (m.inc a.name) a.name vals = ext m [⟨a, vals⟩] := by
  funext n
  unfold ext
  rw [times_single, given_single]
  by_cases h : a.name = n
  · subst h
    simp only [if_pos rfl]
    cases hm : m a.name with
    | none => rw [addAll_same (x := ⟨1, []⟩) (by simp [Matches.inc, hm])]; simp
    | some x => rw [addAll_same (x := ⟨x.occurs + 1, x.vals⟩) (by simp [Matches.inc, hm])]; simp
  · have h' : n ≠ a.name := fun e => h e.symm
    rw [addAll_other h']
    simp [Matches.inc, h, h']

/-- The other order. -/
theorem inc_add (m : Matches) (a : Arg) (v : Text) : (m.add a.name v).inc a.name = ext m [⟨a, [v]⟩] := by
  rw [← addAll_inc]
  funext n
  show _ = ((m.inc a.name).add a.name v) n
  by_cases h : n = a.name
  · subst h
    cases hm : m a.name <;> simp [Matches.inc, Matches.add, hm]
  · simp [Matches.inc, Matches.add, h]

/-! ### Words -/

theorem dropWhile_spec (c : Char) (t : Text) :
    ∃ k, t = List.replicate k c ++ t.dropWhile (· == c) ∧ (t.dropWhile (· == c)).head? ≠ some c := by
  induction t with
  | nil => exact ⟨0, rfl, by simp⟩
  | cons x xs ih =>
    by_cases h : x = c
    · subst h
      obtain ⟨k, h1, h2⟩ := ih
      refine ⟨k + 1, ?_, by simpa using h2⟩
      rw [List.dropWhile_cons_of_pos (by simp), List.replicate_succ, List.cons_append, ← h1]
    · refine ⟨0, ?_, ?_⟩ <;> rw [List.dropWhile_cons_of_neg (by simpa using h)]
      · rfl
      · simpa using h

theorem dropWhile_replicate {c : Char} {t : Text} (k : Nat) (h : t.head? ≠ some c) :
    (List.replicate k c ++ t).dropWhile (· == c) = t := by
  induction k with
  | zero =>
    cases t with
    | nil => rfl
    | cons x xs =>
      show (x :: xs).dropWhile _ = _
      rw [List.dropWhile_cons_of_neg (by simpa using h)]
  | succ k ih => rw [List.replicate_succ, List.cons_append, List.dropWhile_cons_of_pos (by simp), ih]

theorem takeWhile_name {name rest : Text} (h : '=' ∉ name) (hr : rest = [] ∨ rest.head? = some '=') :
    (name ++ rest).takeWhile (· != '=') = name := by
  induction name with
  | nil =>
    rcases hr with rfl | hr
    · rfl
    · cases rest with
      | nil => rfl
      | cons x xs =>
        simp at hr
        subst hr
        rfl
  | cons x xs ih =>
    simp at h
    rw [List.cons_append, List.takeWhile_cons_of_pos (by simpa using fun e => h.1 e.symm), ih h.2]

theorem dropWhile_name {name rest : Text} (h : '=' ∉ name) (hr : rest = [] ∨ rest.head? = some '=') :
    (name ++ rest).dropWhile (· != '=') = rest := by
  induction name with
  | nil =>
    rcases hr with rfl | hr
    · rfl
    · cases rest with
      | nil => rfl
      | cons x xs =>
        simp at hr
        subst hr
        rfl
  | cons x xs ih =>
    simp at h
    rw [List.cons_append, List.dropWhile_cons_of_pos (by simpa using fun e => h.1 e.symm), ih h.2]

theorem takeWhile_noEq (body : Text) : '=' ∉ body.takeWhile (· != '=') := by
  induction body with
  | nil => simp
  | cons x xs ih =>
    by_cases h : x = '='
    · subst h; simp
    · rw [List.takeWhile_cons_of_pos (by simpa using h)]
      simp only [List.mem_cons, not_or]
      exact ⟨fun e => h e.symm, ih⟩

/-- A text with an equality sign is cut at the first one. -/
theorem cut_eq {body : Text} (h : '=' ∈ body) :
    body = body.takeWhile (· != '=') ++ '=' :: (body.dropWhile (· != '=')).drop 1 := by
  induction body with
  | nil => simp at h
  | cons x xs ih =>
    by_cases hx : x = '='
    · subst hx; rfl
    · rw [List.takeWhile_cons_of_pos (by simpa using hx), List.dropWhile_cons_of_pos (by simpa using hx), List.cons_append, ← ih]
      exact (List.mem_cons.1 h).resolve_left fun e => hx e.symm

theorem cut_noEq {body : Text} (h : '=' ∉ body) : body.takeWhile (· != '=') = body := by
  have := takeWhile_name (rest := []) h (.inl rfl)
  simpa using this

theorem find_unique {α : Type} {p : α → Bool} {a : α} {l : List α} (h : a ∈ l) (hp : p a = true) (hu : ∀ b ∈ l, p b = true → b = a) :
    l.find? p = some a := by
  induction l with
  | nil => simp at h
  | cons x xs ih =>
    by_cases hx : p x = true
    · rw [List.find?_cons_of_pos hx, hu x (by simp) hx]
    · rw [List.find?_cons_of_neg hx]
      rcases List.mem_cons.1 h with rfl | h
      · exact absurd hp hx
      · exact ih h fun b hb => hu b (List.mem_cons_of_mem _ hb)

theorem find_none {α : Type} {p : α → Bool} {l : List α} (hu : ∀ b ∈ l, p b = false) : l.find? p = none :=
  List.find?_eq_none.2 fun b hb => by simp [hu b hb]

theorem Proper.name_inj {app : App} (hp : Proper app) {a b : Arg} (ha : a ∈ app.args) (hb : b ∈ app.args) (h : a.name = b.name) : a = b :=
  List.inj_on_of_nodup_map hp.names ha hb h

theorem Proper.short_inj {app : App} (hp : Proper app) {a b : Arg} {c : Char} (ha : a ∈ app.args) (hb : b ∈ app.args)
    (h : a.short = some c) (h' : b.short = some c) : a = b :=
  hp.name_inj ha hb (hp.letters a ha b hb (by simp [h]) (by rw [h, h']))

theorem optLong_some {app : App} (hp : Proper app) {o : Arg} (h : App.IsOption app o) : app.optLong o.name = some o :=
  find_unique h.1 (by simp [h.2]) fun b hb e => hp.name_inj hb h.1 (by simp at e; exact e.2)

theorem optLong_flag {app : App} (hp : Proper app) {f : Arg} (h : App.IsFlag app f) : app.optLong f.name = none :=
  find_none fun b hb => by
    by_cases e : b.name = f.name
    · rw [hp.name_inj hb h.1 e]; simp [h.2]
    · simp [e]

theorem flagLong_some {app : App} (hp : Proper app) {f : Arg} (h : App.IsFlag app f) : app.flagLong f.name = some f :=
  find_unique h.1 (by simp [h.2]) fun b hb e => hp.name_inj hb h.1 (by simp at e; exact e.2)

theorem optShort_some {app : App} (hp : Proper app) {o : Arg} {c : Char} (h : App.IsOption app o) (hc : o.short = some c) :
    app.optShort c = some o :=
  find_unique h.1 (by simp [h.2, hc]) fun b hb e => hp.short_inj hb h.1 (by simp at e; exact e.2) hc

theorem optShort_flag {app : App} (hp : Proper app) {f : Arg} {c : Char} (h : App.IsFlag app f) (hc : f.short = some c) :
    app.optShort c = none :=
  find_none fun b hb => by
    by_cases e : b.short = some c
    · rw [hp.short_inj hb h.1 e hc]; simp [h.2]
    · simp [e]

theorem flagShort_some {app : App} (hp : Proper app) {f : Arg} {c : Char} (h : App.IsFlag app f) (hc : f.short = some c) :
    app.flagShort c = some f :=
  find_unique h.1 (by simp [h.2, hc]) fun b hb e => hp.short_inj hb h.1 (by simp at e; exact e.2) hc

theorem optLong_of {app : App} {n : Text} {o : Arg} (h : app.optLong n = some o) : App.IsOption app o ∧ o.name = n := by
  have h1 := List.mem_of_find?_eq_some h
  have h2 := List.find?_some h
  simp at h2
  exact ⟨⟨h1, h2.1⟩, h2.2⟩

theorem flagLong_of {app : App} {n : Text} {o : Arg} (h : app.flagLong n = some o) : App.IsFlag app o ∧ o.name = n := by
  have h1 := List.mem_of_find?_eq_some h
  have h2 := List.find?_some h
  simp at h2
  exact ⟨⟨h1, h2.1⟩, h2.2⟩

theorem optShort_of {app : App} {c : Char} {o : Arg} (h : app.optShort c = some o) : App.IsOption app o ∧ o.short = some c := by
  have h1 := List.mem_of_find?_eq_some h
  have h2 := List.find?_some h
  simp at h2
  exact ⟨⟨h1, h2.1⟩, h2.2⟩

theorem flagShort_of {app : App} {c : Char} {o : Arg} (h : app.flagShort c = some o) : App.IsFlag app o ∧ o.short = some c := by
  have h1 := List.mem_of_find?_eq_some h
  have h2 := List.find?_some h
  simp at h2
  exact ⟨⟨h1, h2.1⟩, h2.2⟩

/-! ### From the grammar to the parser -/

theorem isNew_plain {o : Arg} {v : Text} (h : Plain v) : isNew (.values o) v = false := by
  rcases h with h | rfl
  · simp [isNew, h]
  · rfl

theorem step_hyphens {app : App} {t : Text} {s : State} (ht : s.trailing = false) (h2 : ['-', '-'].isPrefixOf t = true)
    (hne : t ≠ ['-', '-']) : step app t s = parseLong app t s := by
  have hn : isNew s.needs t = true := by
    obtain ⟨rest, rfl⟩ := List.isPrefixOf_iff_prefix.1 h2
    cases hn : s.needs <;> simp [isNew]
  simp [step, ht, hn, hne, h2]

theorem step_letters {app : App} {c : Char} {cs : Text} {s : State} (ht : s.trailing = false) (hc : c ≠ '-') :
    step app ('-' :: c :: cs) s = parseShort app (c :: cs) s := by
  have hn : isNew s.needs ('-' :: c :: cs) = true := by cases hn : s.needs <;> simp [isNew]
  simp [step, ht, hn, hc.symm, hc]

theorem hyphens_prefix {k : Nat} (hk : 2 ≤ k) (t : Text) : ['-', '-'].isPrefixOf (List.replicate k '-' ++ t) = true := by
  obtain ⟨j, rfl⟩ : ∃ j, k = j + 2 := ⟨k - 2, by omega⟩
  rfl

theorem hyphens_ne {k : Nat} (hk : 2 ≤ k) {t : Text} (ht : t ≠ []) : List.replicate k '-' ++ t ≠ ['-', '-'] := by
  intro e
  have := congrArg List.length e
  have h0 : t.length ≠ 0 := by simpa using ht
  simp at this
  omega

theorem long_word {app : App} (hp : Proper app) {a : Arg} (ha : a ∈ app.args) {k : Nat} (hk : 2 ≤ k) (rest : Text) {s : State}
    (ht : s.trailing = false) :
    step app (List.replicate k '-' ++ (a.name ++ rest)) s = parseLong app (List.replicate k '-' ++ (a.name ++ rest)) s ∧
    (List.replicate k '-' ++ (a.name ++ rest)).dropWhile (· == '-') = a.name ++ rest := by
  have hne : a.name ++ rest ≠ [] := by simp [hp.nonempty a ha]
  refine ⟨step_hyphens ht (hyphens_prefix hk _) (hyphens_ne hk hne), dropWhile_replicate k ?_⟩
  have h1 := hp.nonempty a ha
  have h2 := hp.hyphen a ha
  cases hn : a.name with
  | nil => exact absurd hn h1
  | cons x xs => rw [hn] at h2; simpa using h2

theorem parseLong_plain {app : App} (hp : Proper app) {a : Arg} (ha : a ∈ app.args) {k : Nat} (hk : 2 ≤ k) {s : State}
    (ht : s.trailing = false) :
    step app (List.replicate k '-' ++ a.name) s =
      match app.optLong a.name with
      | some o => .ok (parseOpt o none false s)
      | none =>
        match app.flagLong a.name with
        | some f => .ok (parseFlag f s)
        | none => .error .error := by
  obtain ⟨h1, h2⟩ := long_word hp ha hk [] ht
  rw [List.append_nil] at h1 h2
  rw [h1]
  have he := hp.equals a ha
  have hr := hp.reserved a ha
  unfold parseLong
  simp only [h2]
  rw [cut_noEq he]
  simp only [List.contains_eq_mem, he, decide_false, Bool.false_eq_true, if_false, hr.1, hr.2, Option.isSome_none]
  rfl

theorem parseLong_eq {app : App} (hp : Proper app) {a : Arg} (ha : a ∈ app.args) {k : Nat} (hk : 2 ≤ k) (text : Text) {s : State}
    (ht : s.trailing = false) :
    step app (List.replicate k '-' ++ (a.name ++ '=' :: text)) s =
      match app.optLong a.name with
      | some o => .ok (parseOpt o (some text) true s)
      | none =>
        match app.flagLong a.name with
        | some f => .ok (parseFlag f s)
        | none => .error .error := by
  obtain ⟨h1, h2⟩ := long_word hp ha hk ('=' :: text) ht
  rw [h1]
  have he := hp.equals a ha
  have hr := hp.reserved a ha
  unfold parseLong
  simp only [h2]
  rw [takeWhile_name he (.inr rfl), dropWhile_name he (.inr rfl)]
  simp only [List.contains_eq_mem, List.mem_append, List.mem_cons, true_or, or_true, decide_true, if_true, hr.1, hr.2, if_false,
    Option.isSome_some, List.drop_one, List.tail_cons]
  rfl

/-- An option that waits for values can wait only if it is an option of the application that has been named. -/
def Waits (app : App) (s : State) : Prop := ∀ o, s.needs = .values o → App.IsOption app o ∧ (s.found o.name).isSome = true

theorem addAll_isSome {m : Matches} {n : Text} (vals : List Text) (h : (m n).isSome = true) (n' : Text) (h' : n' = n) :
    (addAll m n vals n').isSome = true := by
  subst h'
  obtain ⟨x, hx⟩ := Option.isSome_iff_exists.1 h
  rw [addAll_same hx]; rfl

theorem count_of_some {m : Matches} {n : Text} {x : Matched} (h : m n = some x) : m.count n = x.vals.length := by
  simp [Matches.count, h]

theorem step_done_plain {app : App} {s : State} {v : Text} (ht : s.trailing = false) (hs : s.needs = .done) (hv : Plain v) :
    step app v s = .error .error := by
  have hn : isNew s.needs v = true := by rw [hs]; rfl
  rcases hv with hv | rfl
  · have h1 : v ≠ ['-', '-'] := fun e => hv (by rw [e]; rfl)
    have h2 : ['-', '-'].isPrefixOf v = false := by
      cases v with
      | nil => rfl
      | cons x xs =>
        have : ('-' == x) = false := by simpa using fun e : '-' = x => hv (by rw [← e]; rfl)
        simp [List.isPrefixOf, this]
    simp [step, ht, hn, h1, h2, hv]
  · simp [step, ht, hn]

/-- Values for an option that waits for them. -/
theorem steps_vals {app : App} {o : Arg} {vals ws : List Text} {s : State} (ht : s.trailing = false) (hs : s.needs = .values o)
    (hsome : (s.found o.name).isSome = true) (hv : ∀ v ∈ vals, Plain v) (ho : Open o ∨ vals.length ≤ 1) :
    (∃ needs, steps app (vals ++ ws) s = steps app ws ⟨needs, addAll s.found o.name vals, false⟩ ∧ (needs = .values o ∨ needs = .done)) ∨
    (steps app (vals ++ ws) s = .error .error ∧ ∃ k, o.maxValues = some k ∧ k < (addAll s.found o.name vals).count o.name) := by
  induction vals generalizing s with
  | nil =>
    refine .inl ⟨.values o, ?_, .inl rfl⟩
    obtain ⟨n, f, t⟩ := s
    cases ht; cases hs; rfl
  | cons v vs ih =>
    have hstep : step app v s = .ok (addValue o v s) := by
      have := isNew_plain (o := o) (hv v (by simp))
      simp [step, ht, hs, this]
    rw [List.cons_append]
    show (∃ needs, (match step app v s with | .ok s => steps app (vs ++ ws) s | .error e => .error e) = _ ∧ _) ∨
      ((match step app v s with | .ok s => steps app (vs ++ ws) s | .error e => .error e) = _ ∧ _)
    rw [hstep]
    simp only
    have hfound : (addValue o v s).found = s.found.add o.name v := rfl
    have htr : (addValue o v s).trailing = false := ht
    have hs' : ((addValue o v s).found o.name).isSome = true := by
      rw [hfound]; exact addAll_isSome [v] hsome _ rfl
    have hall : addAll (s.found.add o.name v) o.name vs = addAll s.found o.name (v :: vs) := rfl
    by_cases hm : o.needsMore ((s.found.add o.name v).count o.name) = true
    · have hneeds : (addValue o v s).needs = .values o := by simp [addValue, hm]
      have hopen : Open o := by
        unfold Arg.needsMore at hm
        unfold Open
        cases h1 : o.maxValues with
        | some k => simp
        | none =>
          cases h2 : o.minValues with
          | some k => simp
          | none => simp [h1, h2] at hm; simp [hm]
      rcases ih htr hneeds hs' (fun w hw => hv w (by simp [hw])) (.inl hopen) with h | h
      · left; rw [hfound, hall] at h; exact h
      · right; rw [hfound, hall] at h; exact h
    · have hneeds : (addValue o v s).needs = .done := by simp [addValue, hm]
      have he : addValue o v s = ⟨.done, s.found.add o.name v, false⟩ := by
        have : (addValue o v s).trailing = false := ht
        cases h : addValue o v s with
        | mk a b c =>
          rw [h] at hneeds hfound this
          simp at hneeds hfound this
          rw [hneeds, hfound, this]
      cases vs with
      | nil => exact .inl ⟨.done, by rw [he]; rfl, .inr rfl⟩
      | cons w ws' =>
        right
        constructor
        · show (match step app w (addValue o v s) with | .ok s => steps app (ws' ++ ws) s | .error e => .error e) = _
          rw [step_done_plain htr hneeds (hv w (by simp))]
        · have hopen : Open o := ho.resolve_right (by simp)
          obtain ⟨x, hx⟩ := Option.isSome_iff_exists.1 hs'
          rw [hfound] at hx
          unfold Arg.needsMore at hm
          cases h1 : o.maxValues with
          | some k =>
            refine ⟨k, rfl, ?_⟩
            rw [h1] at hm
            simp at hm
            rw [← hall, count_of_some (addAll_same hx)]
            rw [count_of_some hx] at hm
            simp; omega
          | none =>
            exfalso
            unfold Open at hopen
            cases h2 : o.minValues with
            | some k => simp [h1, h2] at hm
            | none => simp [h1, h2] at hm hopen; simp [hm] at hopen

theorem letters_steps {app : App} (hp : Proper app) {cs : Text} {fs : List Use} (h : Letters app cs fs) (rest : Text) (s : State) :
    ∃ needs, parseShort app (cs ++ rest) s = parseShort app rest ⟨needs, ext s.found fs, s.trailing⟩ ∧ (needs = s.needs ∨ needs = .nothing) := by
  induction h generalizing s with
  | nil => exact ⟨s.needs, by rw [ext_nil]; rfl, .inl rfl⟩
  | @cons f c cs us hf hc _ ih =>
    obtain ⟨needs, h1, h2⟩ := ih (parseFlag f s)
    refine ⟨needs, ?_, .inr ?_⟩
    · rw [List.cons_append, parseShort, optShort_flag hp hf hc, flagShort_some hp hf hc]
      simp only
      rw [h1]
      have : (parseFlag f s).found = ext s.found [⟨f, []⟩] := addAll_inc s.found f []
      rw [this, ext_append]
      rfl
    · rcases h2 with h2 | h2 <;> exact h2

theorem Letters.ne_hyphen {app : App} (hp : Proper app) {cs : Text} {fs : List Use} (h : Letters app cs fs) : '-' ∉ cs := by
  induction h with
  | nil => simp
  | @cons f c cs us hf hc _ ih =>
    simp only [List.mem_cons, not_or]
    exact ⟨fun e => hp.letter f hf.1 (by rw [hc, e]), ih⟩

/-- The state before the first word. -/
def start : State := ⟨.nothing, fun _ => none, false⟩

theorem ext_isSome {m : Matches} {us : List Use} {n : Text} (h : times us n ≠ 0) : (ext m us n).isSome = true := by
  unfold ext
  rw [if_neg h]
  cases m n <;> rfl

theorem ext_isSome' {m : Matches} {us : List Use} {n : Text} (h : (m n).isSome = true) : (ext m us n).isSome = true := by
  unfold ext
  split
  · exact h
  · cases m n <;> rfl

theorem ext_count (m : Matches) (us : List Use) (n : Text) : (ext m us).count n = m.count n + (given us n).length := by
  unfold ext Matches.count
  by_cases h : times us n = 0
  · simp [h, given_nil_of_times h]
  · simp only [if_neg h]
    cases m n <;> simp

/-- The outcome of the words of some uses. -/
def Outcome (app : App) (m : Matches) (us : List Use) (r : Except Stop State) : Prop :=
  (∃ s, r = .ok s ∧ s.found = ext m us ∧ Waits app s) ∨
  (r = .error .error ∧ ∃ o ∈ app.args, o.takesValue = true ∧ ∃ k, o.maxValues = some k ∧ k < m.count o.name + (given us o.name).length)

theorem Outcome.cons {app : App} {m : Matches} {us vs : List Use} {r : Except Stop State} (h : Outcome app (ext m us) vs r) :
    Outcome app m (us ++ vs) r := by
  rcases h with ⟨s, h1, h2, h3⟩ | ⟨h1, o, ho, ht, k, hk, hlt⟩
  · exact .inl ⟨s, h1, by rw [h2, ext_append], h3⟩
  · refine .inr ⟨h1, o, ho, ht, k, hk, ?_⟩
    rw [ext_count] at hlt
    rw [given_append, List.length_append]
    omega

theorem Outcome.over {app : App} {m : Matches} {us vs : List Use} {o : Arg} (ho : App.IsOption app o) {k : Nat} (hk : o.maxValues = some k)
    (h : k < (ext m us).count o.name) {r : Except Stop State} (hr : r = .error .error) : Outcome app m (us ++ vs) r := by
  refine .inr ⟨hr, o, ho.1, ho.2, k, hk, ?_⟩
  rw [ext_count] at h
  rw [given_append, List.length_append]
  omega

theorem steps_cons {app : App} {t : Text} {ts : List Text} {s s' : State} (h : step app t s = .ok s') :
    steps app (t :: ts) s = steps app ts s' := by
  rw [steps, h]

theorem waits_nothing {app : App} {m : Matches} {b : Bool} : Waits app ⟨.nothing, m, b⟩ := fun _ h => nomatch h
theorem waits_done {app : App} {m : Matches} {b : Bool} : Waits app ⟨.done, m, b⟩ := fun _ h => nomatch h

theorem isSome_inc (m : Matches) (n : Text) : (m.inc n n).isSome = true := by
  unfold Matches.inc
  rw [if_pos rfl]
  cases m n <;> rfl

/-- The words of some uses are understood as these uses. -/
theorem steps_line {app : App} (hp : Proper app) {ws : List Text} {us : List Use} (h : Line app ws us) {s : State}
    (ht : s.trailing = false) (hw : Waits app s) : Outcome app s.found us (steps app ws s) := by
  induction h generalizing s with
  | nil => exact .inl ⟨s, rfl, (ext_nil _).symm, hw⟩
  | stop =>
    refine .inl ⟨{ s with trailing := true }, ?_, (ext_nil _).symm, hw⟩
    have hn : isNew s.needs ['-', '-'] = true := by cases hn : s.needs <;> rfl
    rw [steps]
    simp [step, ht, hn, steps]
  | @flag f ws us k hf hk _ ih =>
    have h1 : step app (List.replicate k '-' ++ f.name) s = .ok (parseFlag f s) := by
      rw [parseLong_plain hp hf.1 hk ht, optLong_flag hp hf, flagLong_some hp hf]
    rw [steps_cons h1]
    have h2 : (parseFlag f s).found = ext s.found [⟨f, []⟩] := addAll_inc s.found f []
    have := ih (s := parseFlag f s) ht waits_nothing
    rw [h2] at this
    exact this.cons
  | @flagText f ws us k text hf hk _ ih =>
    have h1 : step app (List.replicate k '-' ++ f.name ++ '=' :: text) s = .ok (parseFlag f s) := by
      rw [List.append_assoc, parseLong_eq hp hf.1 hk text ht, optLong_flag hp hf, flagLong_some hp hf]
    rw [steps_cons h1]
    have h2 : (parseFlag f s).found = ext s.found [⟨f, []⟩] := addAll_inc s.found f []
    have := ih (s := parseFlag f s) ht waits_nothing
    rw [h2] at this
    exact this.cons
  | @long o vals ws us k ho hk hv hopen _ ih =>
    have h1 : step app (List.replicate k '-' ++ o.name) s = .ok ⟨.values o, s.found.inc o.name, false⟩ := by
      rw [parseLong_plain hp ho.1 hk ht, optLong_some hp ho]
      simp [parseOpt, ht]
    rw [steps_cons h1]
    rcases steps_vals (app := app) (ws := ws) (s := ⟨.values o, s.found.inc o.name, false⟩) rfl rfl (isSome_inc _ _) hv hopen with
      ⟨needs, h2, h3⟩ | ⟨h2, k', h3, h4⟩
    · rw [h2]
      simp only [addAll_inc]
      refine Outcome.cons (us := [⟨o, vals⟩]) (ih (s := ⟨needs, ext s.found [⟨o, vals⟩], false⟩) rfl ?_)
      rcases h3 with rfl | rfl
      · intro o' e
        cases e
        exact ⟨ho, ext_isSome (by rw [times_single]; simp)⟩
      · exact waits_done
    · simp only [addAll_inc] at h4
      exact Outcome.over (us := [⟨o, vals⟩]) ho h3 h4 h2
  | @longEq o v ws us k j ho hk hj hv _ ih =>
    obtain ⟨j, rfl⟩ : ∃ i, j = i + 1 := ⟨j - 1, by omega⟩
    have h1 : step app (List.replicate k '-' ++ o.name ++ List.replicate (j + 1) '=' ++ v) s = .ok ⟨.done, ext s.found [⟨o, [v]⟩], false⟩ := by
      have e : List.replicate k '-' ++ o.name ++ List.replicate (j + 1) '=' ++ v
          = List.replicate k '-' ++ (o.name ++ '=' :: (List.replicate j '=' ++ v)) := by
        simp [List.replicate_succ]
      rw [e, parseLong_eq hp ho.1 hk _ ht, optLong_some hp ho]
      simp [parseOpt, ht, dropWhile_replicate j hv, inc_add]
    rw [steps_cons h1]
    exact Outcome.cons (us := [⟨o, [v]⟩]) (ih (s := ⟨.done, ext s.found [⟨o, [v]⟩], false⟩) rfl waits_done)
  | @letters cs fs ws us hne hl _ ih =>
    cases cs with
    | nil => exact absurd rfl hne
    | cons c cs =>
      have hc : c ≠ '-' := fun e => hl.ne_hyphen hp (by simp [e])
      obtain ⟨needs, h1, h2⟩ := letters_steps hp hl [] s
      rw [List.append_nil] at h1
      have h3 : step app ('-' :: c :: cs) s = .ok ⟨needs, ext s.found fs, s.trailing⟩ := by
        rw [step_letters ht hc, h1]; rfl
      rw [steps_cons h3]
      refine Outcome.cons (ih (s := ⟨needs, ext s.found fs, s.trailing⟩) ht ?_)
      rcases h2 with rfl | rfl
      · intro o e
        exact ⟨(hw o e).1, ext_isSome' (hw o e).2⟩
      · exact waits_nothing
  | @short o c cs fs vals ws us hl ho hc hv hopen _ ih =>
    have hh := hl.ne_hyphen hp
    have hc' : c ≠ '-' := fun e => hp.letter o ho.1 (by rw [hc, e])
    have h1 : step app ('-' :: cs ++ [c]) s = .ok ⟨.values o, (ext s.found fs).inc o.name, false⟩ := by
      obtain ⟨needs, h1, _⟩ := letters_steps hp hl [c] s
      have h2 : step app ('-' :: cs ++ [c]) s = parseShort app (cs ++ [c]) s := by
        cases cs with
        | nil => exact step_letters ht hc'
        | cons d ds => exact step_letters ht fun e => hh (by simp [e])
      rw [h2, h1, parseShort, optShort_some hp ho hc]
      simp [parseOpt, ht]
    rw [steps_cons h1]
    rcases steps_vals (app := app) (ws := ws) (s := ⟨.values o, (ext s.found fs).inc o.name, false⟩) rfl rfl (isSome_inc _ _) hv hopen with
      ⟨needs, h2, h3⟩ | ⟨h2, k', h3, h4⟩
    · rw [h2]
      simp only [addAll_inc]
      refine Outcome.cons (us := fs) (Outcome.cons (us := [⟨o, vals⟩]) (ih (s := ⟨needs, ext (ext s.found fs) [⟨o, vals⟩], false⟩) rfl ?_))
      rcases h3 with rfl | rfl
      · intro o' e
        cases e
        exact ⟨ho, ext_isSome (by rw [times_single]; simp)⟩
      · exact waits_done
    · simp only [addAll_inc] at h4
      exact Outcome.cons (us := fs) (Outcome.over (us := [⟨o, vals⟩]) ho h3 h4 h2)
  | @glued o c cs fs v vals ws us hl ho hc hne hv hvs hm _ ih =>
    have hh := hl.ne_hyphen hp
    have hc' : c ≠ '-' := fun e => hp.letter o ho.1 (by rw [hc, e])
    have hmore : ∀ n, o.multiple = true → o.needsMore n = true := by
      intro n h
      unfold Arg.needsMore
      rw [hp.most o ho.1 h]
      cases o.minValues <;> simp [h]
    have h1 : step app ('-' :: cs ++ c :: v) s =
        .ok ⟨if o.multiple = true then .values o else .done, ext (ext s.found fs) [⟨o, [v]⟩], false⟩ := by
      obtain ⟨needs, h1, _⟩ := letters_steps hp hl (c :: v) s
      have h2 : step app ('-' :: cs ++ c :: v) s = parseShort app (cs ++ c :: v) s := by
        cases cs with
        | nil => exact step_letters ht hc'
        | cons d ds => exact step_letters ht fun e => hh (by simp [e])
      rw [h2, h1, parseShort, optShort_some hp ho hc]
      have h3 : v.dropWhile (· == '=') = v := dropWhile_replicate 0 hv
      have h4 : (v.head? == some '=') = false := by simpa using hv
      have h5 : v.isEmpty = false := by simpa using hne
      simp only [h5, Bool.false_eq_true, if_false, parseOpt, h3, h4, inc_add, ht]
      by_cases hmu : o.multiple = true
      · simp [hmu, hmore _ hmu]
      · simp [hmu]
    rw [steps_cons h1]
    by_cases hmu : o.multiple = true
    · simp only [if_pos hmu]
      rcases steps_vals (app := app) (ws := ws) (s := ⟨.values o, ext (ext s.found fs) [⟨o, [v]⟩], false⟩) rfl rfl
        (ext_isSome (by rw [times_single]; simp)) hvs (.inl (.inl hmu)) with ⟨needs, h2, h3⟩ | ⟨h2, k', h3, h4⟩
      · rw [h2]
        simp only [← addAll_inc, addAll_append, List.cons_append, List.nil_append]
        simp only [addAll_inc]
        refine Outcome.cons (us := fs)
          (Outcome.cons (us := [⟨o, v :: vals⟩]) (ih (s := ⟨needs, ext (ext s.found fs) [⟨o, v :: vals⟩], false⟩) rfl ?_))
        rcases h3 with rfl | rfl
        · intro o' e
          cases e
          exact ⟨ho, ext_isSome (by rw [times_single]; simp)⟩
        · exact waits_done
      · rw [hp.most o ho.1 hmu] at h3
        cases h3
    · simp only [if_neg hmu]
      cases hm.resolve_left hmu
      exact Outcome.cons (us := fs)
        (Outcome.cons (us := [⟨o, [v]⟩]) (ih (s := ⟨.done, ext (ext s.found fs) [⟨o, [v]⟩], false⟩) rfl waits_done))
  | @gluedEq o c cs fs v ws us j hl ho hc hj hv _ ih =>
    have hh := hl.ne_hyphen hp
    have hc' : c ≠ '-' := fun e => hp.letter o ho.1 (by rw [hc, e])
    obtain ⟨j, rfl⟩ : ∃ i, j = i + 1 := ⟨j - 1, by omega⟩
    have h1 : step app ('-' :: cs ++ c :: (List.replicate (j + 1) '=' ++ v)) s = .ok ⟨.done, ext (ext s.found fs) [⟨o, [v]⟩], false⟩ := by
      obtain ⟨needs, h1, _⟩ := letters_steps hp hl (c :: (List.replicate (j + 1) '=' ++ v)) s
      have h2 : step app ('-' :: cs ++ c :: (List.replicate (j + 1) '=' ++ v)) s
          = parseShort app (cs ++ c :: (List.replicate (j + 1) '=' ++ v)) s := by
        cases cs with
        | nil => exact step_letters ht hc'
        | cons d ds => exact step_letters ht fun e => hh (by simp [e])
      rw [h2, h1, parseShort, optShort_some hp ho hc]
      have h3 : (List.replicate (j + 1) '=' ++ v).dropWhile (· == '=') = v := dropWhile_replicate (j + 1) hv
      have h4 : ((List.replicate (j + 1) '=' ++ v).head? == some '=') = true := rfl
      have h5 : (List.replicate (j + 1) '=' ++ v).isEmpty = false := rfl
      simp only [h5, Bool.false_eq_true, if_false, parseOpt, h3, h4, inc_add, ht]
      simp
    rw [steps_cons h1]
    exact Outcome.cons (us := fs)
      (Outcome.cons (us := [⟨o, [v]⟩]) (ih (s := ⟨.done, ext (ext s.found fs) [⟨o, [v]⟩], false⟩) rfl waits_done))

/-! ### From the parser to the grammar -/

theorem plain_of_old {needs : Needs} {t : Text} (h : isNew needs t = false) : Plain t := by
  cases needs with
  | done => simp [isNew] at h
  | nothing | values o =>
    simp only [isNew, Bool.and_eq_false_iff] at h
    rcases h with h | h
    · left; intro e; simp [e] at h
    · by_cases hh : t.head? = some '-'
      · right
        simp at h
        match t, h, hh with
        | [x], _, hh => simp at hh; rw [hh]
      · exact .inl hh

/-- What the words of a command line are for a state: first values of the option that waits, then uses. -/
def Understood (app : App) (ts : List Text) (needs : Needs) : Prop :=
  ∃ vals ws us, ts = vals ++ ws ∧ Line app ws us ∧
    (vals = [] ∨ ∃ o, needs = .values o ∧ (∀ v ∈ vals, Plain v) ∧ (Open o ∨ vals.length ≤ 1))

theorem Understood.line {app : App} {ts : List Text} {needs : Needs} (h : Understood app ts needs) (hn : ∀ o, needs ≠ .values o) :
    ∃ us, Line app ts us := by
  obtain ⟨vals, ws, us, rfl, hl, rfl | ⟨o, e, _⟩⟩ := h
  · exact ⟨us, hl⟩
  · exact absurd e (hn o)

theorem Understood.opt {app : App} {ts : List Text} {o : Arg} (h : Understood app ts (.values o)) :
    ∃ vals ws us, ts = vals ++ ws ∧ Line app ws us ∧ (∀ v ∈ vals, Plain v) ∧ (Open o ∨ vals.length ≤ 1) := by
  obtain ⟨vals, ws, us, rfl, hl, rfl | ⟨o, e, h1, h2⟩⟩ := h
  · exact ⟨[], ws, us, rfl, hl, by simp, .inr (by simp)⟩
  · cases e
    exact ⟨vals, ws, us, rfl, hl, h1, h2⟩

/-- Letters that are understood: flags only, or flags and then an option, perhaps with a value. -/
theorem parseShort_sound {app : App} {cs : Text} {s s' : State} (h : parseShort app cs s = .ok s') :
    s'.trailing = s.trailing ∧
    ((∃ fs, Letters app cs fs ∧ (cs = [] ∨ s'.needs = .nothing)) ∨
     (∃ cs1 fs c o rest, cs = cs1 ++ c :: rest ∧ Letters app cs1 fs ∧ App.IsOption app o ∧ o.short = some c ∧
       ((rest = [] ∧ s'.needs = .values o) ∨
        (rest ≠ [] ∧ s'.needs = .done) ∨
        (rest ≠ [] ∧ rest.head? ≠ some '=' ∧ o.multiple = true ∧ s'.needs = .values o)))) := by
  induction cs generalizing s with
  | nil =>
    cases h
    exact ⟨rfl, .inl ⟨[], .nil, .inl rfl⟩⟩
  | cons c cs ih =>
    rw [parseShort] at h
    cases ho : app.optShort c with
    | some o =>
      rw [ho] at h
      obtain ⟨h1, h2⟩ := optShort_of ho
      cases h
      refine ⟨?_, .inr ⟨[], [], c, o, cs, rfl, .nil, h1, h2, ?_⟩⟩
      · unfold parseOpt; split <;> rfl
      · cases cs with
        | nil => exact .inl ⟨rfl, rfl⟩
        | cons d ds =>
          right
          simp only [List.isEmpty_cons, Bool.false_eq_true, if_false, parseOpt, Bool.or_false]
          split
          · rename_i hc
            simp only [Bool.and_eq_true, Bool.not_eq_true', List.head?_cons] at hc
            refine .inr ⟨by simp, ?_, hc.1.1, rfl⟩
            have := hc.1.2
            simpa using this
          · exact .inl ⟨by simp, rfl⟩
    | none =>
      rw [ho] at h
      simp only at h
      cases hf : app.flagShort c with
      | some f =>
        rw [hf] at h
        obtain ⟨h1, h2⟩ := flagShort_of hf
        obtain ⟨ht, h | h⟩ := ih h
        · refine ⟨ht, .inl ?_⟩
          obtain ⟨fs, hl, hn⟩ := h
          refine ⟨_, .cons h1 h2 hl, .inr ?_⟩
          rcases hn with rfl | hn
          · have h := ‹parseShort app [] (parseFlag f s) = .ok s'›
            cases h; rfl
          · exact hn
        · refine ⟨ht, .inr ?_⟩
          obtain ⟨cs1, fs, c', o, rest, rfl, hl, rest'⟩ := h
          exact ⟨c :: cs1, _, c', o, rest, rfl, .cons h1 h2 hl, rest'⟩
      | none =>
        rw [hf] at h
        simp only at h
        split at h
        · cases h
        · split at h <;> cases h

theorem steps_trailing {app : App} {ts : List Text} {s s' : State} (ht : s.trailing = true) (h : steps app ts s = .ok s') : ts = [] := by
  cases ts with
  | nil => rfl
  | cons t ts =>
    rw [steps] at h
    simp [step, ht] at h

/-- Words that are understood are values of the option that waits, and then uses of arguments. -/
theorem steps_sound {app : App} {ts : List Text} {s s' : State} (ht : s.trailing = false) (h : steps app ts s = .ok s') :
    Understood app ts s.needs := by
  induction ts generalizing s with
  | nil => exact ⟨[], [], [], rfl, .nil, .inl rfl⟩
  | cons t ts ih =>
    rw [steps] at h
    cases h1 : step app t s with
    | error e => rw [h1] at h; cases h
    | ok s1 =>
      rw [h1] at h
      simp only at h
      unfold step at h1
      simp only [ht, Bool.false_eq_true, if_false] at h1
      cases hn : isNew s.needs t with
      | false =>
        rw [hn] at h1
        simp only [Bool.false_eq_true, if_false] at h1
        cases hs : s.needs with
        | nothing | done => rw [hs] at h1; cases h1
        | values o =>
          rw [hs] at h1
          cases h1
          have hp := plain_of_old hn
          have := ih (s := addValue o t s) ht h
          by_cases hm : o.needsMore ((s.found.add o.name t).count o.name) = true
          · have hneeds : (addValue o t s).needs = .values o := by simp [addValue, hm]
            have hopen : Open o := by
              unfold Arg.needsMore at hm
              unfold Open
              cases h1 : o.maxValues with
              | some k => simp
              | none =>
                cases h2 : o.minValues with
                | some k => simp
                | none => simp [h1, h2] at hm; simp [hm]
            rw [hneeds] at this
            obtain ⟨vals, ws, us, rfl, hl, hv, _⟩ := this.opt
            refine ⟨t :: vals, ws, us, rfl, hl, .inr ⟨o, rfl, ?_, .inl hopen⟩⟩
            intro v hv'
            rcases List.mem_cons.1 hv' with rfl | hv'
            · exact hp
            · exact hv v hv'
          · have hneeds : (addValue o t s).needs = .done := by simp [addValue, hm]
            rw [hneeds] at this
            obtain ⟨us, hl⟩ := this.line (by simp)
            exact ⟨[t], ts, us, rfl, hl, .inr ⟨o, rfl, by simpa using hp, .inr (by simp)⟩⟩
      | true =>
        rw [hn] at h1
        simp only [if_true] at h1
        suffices hs : ∃ us, Line app (t :: ts) us by
          obtain ⟨us, hl⟩ := hs
          exact ⟨[], t :: ts, us, rfl, hl, .inl rfl⟩
        by_cases h2 : t = ['-', '-']
        · rw [if_pos h2] at h1
          cases h1
          rw [steps_trailing rfl h, h2]
          exact ⟨[], .stop⟩
        · rw [if_neg h2] at h1
          by_cases h3 : ['-', '-'].isPrefixOf t = true
          · rw [if_pos h3] at h1
            obtain ⟨k, hk, hb⟩ := dropWhile_spec '-' t
            unfold parseLong at h1
            simp only at h1
            generalize hbody : t.dropWhile (· == '-') = body at *
            have hk2 : 2 ≤ k := by
              obtain ⟨rest, hr⟩ := List.isPrefixOf_iff_prefix.1 h3
              match k, hk with
              | 0, hk =>
                rw [hk] at hr
                exfalso; apply hb; rw [show List.replicate 0 '-' ++ body = body from rfl] at hr; rw [← hr]; rfl
              | 1, hk =>
                rw [hk] at hr
                exfalso; apply hb
                have : '-' :: rest = body := List.tail_eq_of_cons_eq hr
                rw [← this]; rfl
              | k + 2, _ => omega
            by_cases he : '=' ∈ body
            · have hcut := cut_eq he
              generalize hname : body.takeWhile (· != '=') = name at *
              generalize hval : (body.dropWhile (· != '=')).drop 1 = val at *
              have hc : body.contains '=' = true := by simpa using he
              rw [if_pos hc] at h1
              cases ho : app.optLong name with
              | some o =>
                rw [ho] at h1
                obtain ⟨hopt, rfl⟩ := optLong_of ho
                cases h1
                have := ih (s := parseOpt o (some val) true s) ht h
                have hneeds : (parseOpt o (some val) true s).needs = .done := by simp [parseOpt]
                rw [hneeds] at this
                obtain ⟨us, hl⟩ := this.line (by simp)
                obtain ⟨j, hj, hv⟩ := dropWhile_spec '=' val
                generalize hv' : val.dropWhile (· == '=') = v at hj hv
                have e : t = List.replicate k '-' ++ o.name ++ List.replicate (j + 1) '=' ++ v := by
                  rw [hk, hcut, hj]
                  simp [List.replicate_succ]
                rw [e]
                exact ⟨_, .longEq k (j + 1) hopt hk2 (by omega) hv hl⟩
              | none =>
                rw [ho] at h1
                simp only at h1
                split at h1
                · cases h1
                · split at h1
                  · cases h1
                  · cases hf : app.flagLong name with
                    | none => rw [hf] at h1; cases h1
                    | some f =>
                      rw [hf] at h1
                      obtain ⟨hflag, rfl⟩ := flagLong_of hf
                      cases h1
                      have := ih (s := parseFlag f s) ht h
                      obtain ⟨us, hl⟩ := this.line (by simp [parseFlag])
                      have e : t = List.replicate k '-' ++ f.name ++ '=' :: val := by rw [hk, hcut, List.append_assoc]
                      rw [e]
                      exact ⟨_, .flagText k val hflag hk2 hl⟩
            · have hcut := cut_noEq he
              have hc : body.contains '=' = false := by simpa using he
              rw [hcut] at h1
              simp only [hc, Bool.false_eq_true, if_false] at h1
              cases ho : app.optLong body with
              | some o =>
                rw [ho] at h1
                obtain ⟨hopt, rfl⟩ := optLong_of ho
                cases h1
                have := ih (s := parseOpt o none false s) ht h
                obtain ⟨vals, ws, us, rfl, hl, hv, ho⟩ := this.opt
                rw [hk]
                exact ⟨_, .long k hopt hk2 hv ho hl⟩
              | none =>
                rw [ho] at h1
                simp only at h1
                split at h1
                · cases h1
                · split at h1
                  · cases h1
                  · cases hf : app.flagLong body with
                    | none => rw [hf] at h1; cases h1
                    | some f =>
                      rw [hf] at h1
                      obtain ⟨hflag, rfl⟩ := flagLong_of hf
                      cases h1
                      have := ih (s := parseFlag f s) ht h
                      obtain ⟨us, hl⟩ := this.line (by simp [parseFlag])
                      rw [hk]
                      exact ⟨_, .flag k hflag hk2 hl⟩
          · rw [if_neg h3] at h1
            split at h1
            · rename_i h4
              simp only [Bool.and_eq_true, beq_iff_eq, decide_eq_true_eq] at h4
              match t, h4 with
              | [], h4 => simp at h4
              | x :: cs, h4 =>
                obtain ⟨h4, h5⟩ := h4
                simp only [List.head?_cons, Option.some.injEq] at h4
                subst h4
                have hne : cs ≠ [] := by rintro rfl; simp at h5
                obtain ⟨htr, hcase⟩ := parseShort_sound h1
                have htr : s1.trailing = false := htr.trans ht
                have hu := ih htr h
                rcases hcase with ⟨fs, hl, hn'⟩ | ⟨cs1, fs, c, o, rest, hcs, hl, ho, hc, hrest⟩
                · have hn' := hn'.resolve_left hne
                  obtain ⟨us, hl'⟩ := hu.line (by simp [hn'])
                  exact ⟨_, .letters hne hl hl'⟩
                · simp only [List.tail_cons] at hcs
                  rw [hcs]
                  rcases hrest with ⟨rfl, hn'⟩ | ⟨hr, hn'⟩ | ⟨hr, hr', hm, hn'⟩
                  · rw [hn'] at hu
                    obtain ⟨vals, ws, us, rfl, hl', hv, hop⟩ := hu.opt
                    exact ⟨_, .short hl ho hc hv hop hl'⟩
                  · obtain ⟨us, hl'⟩ := hu.line (by simp [hn'])
                    obtain ⟨j, hj, hv⟩ := dropWhile_spec '=' rest
                    match j, hj with
                    | 0, hj =>
                      rw [show List.replicate 0 '=' ++ rest.dropWhile (· == '=') = rest.dropWhile (· == '=') from rfl] at hj
                      rw [← hj] at hv
                      exact ⟨_, .glued (vals := []) hl ho hc hr hv (by simp) (.inr rfl) hl'⟩
                    | j + 1, hj =>
                      rw [hj]
                      exact ⟨_, .gluedEq (j + 1) hl ho hc (by omega) hv hl'⟩
                  · rw [hn'] at hu
                    obtain ⟨vals, ws, us, rfl, hl', hv, hop⟩ := hu.opt
                    exact ⟨_, .glued hl ho hc hr hr' hv (.inl hm) hl'⟩
            · cases h1

/-! ### Default values and the final checks -/

/-- One default value. -/
def addDefault (m : Matches) (o : Arg) : Matches :=
  match o.default with
  | some d => if o.takesValue && decide (m.count o.name = 0) then m.add o.name d else m
  | none => m

theorem addDefaults_foldl (app : App) (m : Matches) : addDefaults app m = app.args.foldl addDefault m := rfl

theorem addDefault_other {m : Matches} {o : Arg} {n : Text} (h : n ≠ o.name) : addDefault m o n = m n := by
  unfold addDefault
  cases o.default with
  | none => rfl
  | some d =>
    simp only
    split
    · simp [Matches.add, h]
    · rfl

theorem addDefault_congr {m m' : Matches} {o : Arg} (h : m o.name = m' o.name) : addDefault m o o.name = addDefault m' o o.name := by
  unfold addDefault
  have hc : m.count o.name = m'.count o.name := by simp [Matches.count, h]
  rw [hc]
  cases o.default with
  | none => exact h
  | some d =>
    simp only
    split
    · simp [Matches.add, h]
    · exact h

theorem foldl_default {l : List Arg} (hl : (l.map (·.name)).Nodup) (m : Matches) (n : Text) :
    l.foldl addDefault m n = match l.find? fun a => a.name = n with
      | some a => addDefault m a n
      | none => m n := by
  induction l generalizing m with
  | nil => rfl
  | cons x xs ih =>
    rw [List.map_cons, List.nodup_cons] at hl
    rw [List.foldl_cons, ih hl.2]
    by_cases hx : x.name = n
    · have h1 : xs.find? (fun a => a.name = n) = none :=
        find_none fun b hb => by
          simp only [decide_eq_false_iff_not]
          intro e
          exact hl.1 (List.mem_map.2 ⟨b, hb, e.trans hx.symm⟩)
      rw [h1, List.find?_cons_of_pos (by simpa using hx)]
    · rw [List.find?_cons_of_neg (by simpa using hx)]
      cases h : xs.find? fun a => a.name = n with
      | none => exact addDefault_other fun e => hx e.symm
      | some a =>
        have ha : a.name = n := by simpa using List.find?_some h
        subst ha
        exact addDefault_congr (addDefault_other fun e => hx e.symm)

/-- The matches of some uses. -/
def tally (us : List Use) : Matches := ext (fun _ => none) us

theorem tally_apply (us : List Use) (n : Text) : tally us n = if times us n = 0 then none else some ⟨times us n, given us n⟩ := rfl

theorem tally_count (us : List Use) (n : Text) : (tally us).count n = (given us n).length := by
  unfold tally
  rw [ext_count]
  simp [Matches.count]

theorem find_name {app : App} (hp : Proper app) {a : Arg} (ha : a ∈ app.args) : (app.args.find? fun b => b.name = a.name) = some a :=
  find_unique ha (by simp) fun b hb e => hp.name_inj hb ha (by simpa using e)

theorem meaning_apply {app : App} (hp : Proper app) {a : Arg} (ha : a ∈ app.args) (us : List Use) :
    meaning app us a.name = if times us a.name = 0 ∧ valuesOf us a = [] then none else some ⟨times us a.name, valuesOf us a⟩ := by
  unfold meaning
  rw [find_name hp ha]

theorem default_meaning {app : App} (hp : Proper app) {a : Arg} (ha : a ∈ app.args) (us : List Use) :
    addDefault (tally us) a a.name = meaning app us a.name := by
  rw [meaning_apply hp ha]
  have hg : times us a.name = 0 → given us a.name = [] := given_nil_of_times
  unfold addDefault
  cases hd : a.default with
  | none =>
    simp only [tally_apply, valuesOf, hd, Option.toList_none]
    by_cases ht : times us a.name = 0
    · simp [ht, hg ht]
    · by_cases hgv : given us a.name = [] <;> simp [ht, hgv]
  | some d =>
    have htv : a.takesValue = true := by
      cases h : a.takesValue with
      | true => rfl
      | false => rw [hp.flags a ha h] at hd; cases hd
    simp only [htv, Bool.true_and, tally_count, List.length_eq_zero_iff, decide_eq_true_eq, valuesOf, hd, Option.toList_some]
    by_cases hgv : given us a.name = []
    · by_cases ht : times us a.name = 0 <;> simp [hgv, ht, Matches.add, tally_apply]
    · have ht : times us a.name ≠ 0 := fun e => hgv (hg e)
      simp [hgv, ht, tally_apply]

theorem addDefaults_meaning {app : App} (hp : Proper app) {us : List Use} (hu : ∀ u ∈ us, u.arg ∈ app.args) :
    addDefaults app (tally us) = meaning app us := by
  funext n
  rw [addDefaults_foldl, foldl_default hp.names]
  cases h : app.args.find? fun a => a.name = n with
  | some a =>
    have ha : a.name = n := by simpa using List.find?_some h
    subst ha
    exact default_meaning hp (List.mem_of_find?_eq_some h) us
  | none =>
    unfold meaning
    rw [h]
    have ht : times us n = 0 := by
      unfold times
      rw [List.length_eq_zero_iff, List.filter_eq_nil_iff]
      intro u hu'
      simpa using List.find?_eq_none.1 h u.arg (hu u hu')
    simp [tally_apply, ht]

theorem Letters.mem {app : App} {cs : Text} {fs : List Use} (h : Letters app cs fs) : ∀ u ∈ fs, u.arg ∈ app.args := by
  induction h with
  | nil => simp
  | cons hf _ _ ih => intro u hu; rcases List.mem_cons.1 hu with rfl | hu; exacts [hf.1, ih u hu]

theorem Line.mem {app : App} {ws : List Text} {us : List Use} (h : Line app ws us) : ∀ u ∈ us, u.arg ∈ app.args := by
  induction h with
  | nil | stop => simp
  | flag _ hf _ _ ih | flagText _ _ hf _ _ ih | long _ hf _ _ _ _ ih | longEq _ _ hf _ _ _ _ ih =>
    intro u hu; rcases List.mem_cons.1 hu with rfl | hu; exacts [hf.1, ih u hu]
  | letters _ hl _ ih => intro u hu; rcases List.mem_append.1 hu with hu | hu; exacts [hl.mem u hu, ih u hu]
  | short hl ho _ _ _ _ ih | glued hl ho _ _ _ _ _ _ ih | gluedEq _ hl ho _ _ _ _ ih =>
    intro u hu
    rcases List.mem_append.1 hu with hu | hu
    · exact hl.mem u hu
    · rcases List.mem_cons.1 hu with rfl | hu; exacts [ho.1, ih u hu]

theorem Letters.flag {app : App} {cs : Text} {fs : List Use} (h : Letters app cs fs) : ∀ u ∈ fs, u.arg.takesValue = false → u.vals = [] := by
  induction h with
  | nil => simp
  | cons hf _ _ ih => intro u hu; rcases List.mem_cons.1 hu with rfl | hu; exacts [fun _ => rfl, ih u hu]

theorem Line.flag_vals {app : App} {ws : List Text} {us : List Use} (h : Line app ws us) : ∀ u ∈ us, u.arg.takesValue = false → u.vals = [] := by
  induction h with
  | nil | stop => simp
  | flag _ hf _ _ ih | flagText _ _ hf _ _ ih =>
    intro u hu; rcases List.mem_cons.1 hu with rfl | hu; exacts [fun _ => rfl, ih u hu]
  | long _ hf _ _ _ _ ih | longEq _ _ hf _ _ _ _ ih =>
    intro u hu; rcases List.mem_cons.1 hu with rfl | hu; exacts [fun e => absurd (hf.2.symm.trans e) (by simp), ih u hu]
  | letters _ hl _ ih => intro u hu; rcases List.mem_append.1 hu with hu | hu; exacts [hl.flag u hu, ih u hu]
  | short hl ho _ _ _ _ ih | glued hl ho _ _ _ _ _ _ ih | gluedEq _ hl ho _ _ _ _ ih =>
    intro u hu
    rcases List.mem_append.1 hu with hu | hu
    · exact hl.flag u hu
    · rcases List.mem_cons.1 hu with rfl | hu; exacts [fun e => absurd (ho.2.symm.trans e) (by simp), ih u hu]

theorem valuesOf_default {us : List Use} {a : Arg} (h : a.default ≠ none) : valuesOf us a ≠ [] := by
  unfold valuesOf
  split
  · cases hd : a.default with
    | none => exact absurd hd h
    | some d => simp
  · assumption

theorem valuesOf_none {us : List Use} {a : Arg} (h : a.default = none) : valuesOf us a = given us a.name := by
  unfold valuesOf
  split
  · rename_i e; rw [e, h]; rfl
  · rfl

/-- Some elements of a duplicate-free list: exactly one. -/
theorem filter_one {l : List Text} (hl : l.Nodup) (p : Text → Bool) :
    (l.filter p).length = 1 ↔ ∃ n ∈ l, p n = true ∧ ∀ n' ∈ l, p n' = true → n' = n := by
  constructor
  · intro h
    obtain ⟨n, hn⟩ := List.length_eq_one_iff.1 h
    have h1 : n ∈ l.filter p := by rw [hn]; simp
    rw [List.mem_filter] at h1
    refine ⟨n, h1.1, h1.2, fun n' h2 h3 => ?_⟩
    have : n' ∈ l.filter p := List.mem_filter.2 ⟨h2, h3⟩
    rw [hn] at this
    simpa using this
  · rintro ⟨n, h1, h2, h3⟩
    have hnd := hl.filter p
    have hmem : n ∈ l.filter p := List.mem_filter.2 ⟨h1, h2⟩
    have hall : ∀ x ∈ l.filter p, x = n := fun x hx => h3 x (List.mem_filter.1 hx).1 (List.mem_filter.1 hx).2
    generalize l.filter p = m at *
    match m, hnd, hmem, hall with
    | [x], _, _, _ => rfl
    | x :: y :: zs, hnd, _, hall =>
      have h4 := hall x (by simp)
      have h5 := hall y (by simp)
      simp [h4, h5] at hnd

theorem valid_iff {app : App} (hp : Proper app) {us : List Use} {needs : Needs}
    (hn : ∀ o, needs = .values o → App.IsOption app o ∧ times us o.name ≠ 0) :
    valid app needs (meaning app us) = true ↔ Admissible app us := by
  have hargs : (app.args.all fun a => match meaning app us a.name with | some x => validMatched a x | none => !a.required) = true ↔
      ∀ a ∈ app.args, (if times us a.name = 0 ∧ valuesOf us a = [] then a.required = false
        else validMatched a ⟨times us a.name, valuesOf us a⟩ = true) := by
    rw [List.all_eq_true]
    refine forall_congr' fun a => forall_congr' fun ha => ?_
    rw [meaning_apply hp ha]
    by_cases h : times us a.name = 0 ∧ valuesOf us a = []
    · simp [h]
    · rw [if_neg h, if_neg h]
  have hmatched : ∀ a ∈ app.args, (validMatched a ⟨times us a.name, valuesOf us a⟩ = true ↔
      ((a.takesValue = true → (∀ k, a.maxValues = some k → (valuesOf us a).length ≤ k) ∧
        (∀ k, a.minValues = some k → k ≤ (valuesOf us a).length) ∧ valuesOf us a ≠ []) ∧
      (a.multiple = false → times us a.name ≤ 1))) := by
    intro a ha
    have h0 := hp.least a ha
    unfold validMatched
    cases htv : a.takesValue <;> cases hmu : a.multiple <;> cases hmax : a.maxValues <;> cases hmin : a.minValues <;>
      simp_all [and_assoc]
  have hgroup : ((app.group.filter fun n => (meaning app us n).isSome).length == if app.group.isEmpty then 0 else 1) = true ↔
      (app.group ≠ [] → ∃ n ∈ app.group, times us n ≠ 0 ∧ ∀ n' ∈ app.group, times us n' ≠ 0 → n' = n) := by
    cases hg : app.group with
    | nil => simp
    | cons x xs =>
      rw [← hg]
      have h1 : app.group ≠ [] := by rw [hg]; simp
      have h2 : app.group.isEmpty = false := by rw [hg]; rfl
      have h3 : ∀ n ∈ app.group, ((meaning app us n).isSome = true ↔ times us n ≠ 0) := by
        intro n hn
        obtain ⟨a, ha, rfl, hd⟩ := hp.group n hn
        rw [meaning_apply hp ha, valuesOf_none hd]
        by_cases ht : times us a.name = 0
        · simp [ht, given_nil_of_times ht]
        · simp [ht]
      simp only [h2, Bool.false_eq_true, if_false, beq_iff_eq, filter_one hp.groupNames, ne_eq, h1, not_false_eq_true, forall_true_left]
      refine exists_congr fun n => and_congr_right fun hn => ?_
      rw [h3 n hn]
      refine and_congr_right fun _ => forall_congr' fun n' => forall_congr' fun hn' => ?_
      rw [h3 n' hn']
  unfold valid
  rw [Bool.and_eq_true, Bool.and_eq_true, hgroup]
  refine Iff.trans (and_congr Iff.rfl hargs) ?_
  constructor
  · rintro ⟨⟨_, h2⟩, h3⟩
    have hcase : ∀ a ∈ app.args, ¬(times us a.name = 0 ∧ valuesOf us a = []) → _ := fun a ha hne =>
      (hmatched a ha).1 (by have := h3 a ha; rwa [if_neg hne] at this)
    refine ⟨?_, ?_, ?_, ?_, ?_, h2⟩
    · intro a ha hr
      by_cases ht : times us a.name = 0
      · right
        intro hd
        have := h3 a ha
        rw [if_pos ⟨ht, by rw [valuesOf_none hd, given_nil_of_times ht]⟩, hr] at this
        cases this
      · exact .inl ht
    · intro a ha hm
      by_cases ht : times us a.name = 0
      · omega
      · exact (hcase a ha fun h => ht h.1).2 hm
    · intro a ha htv ht
      exact ((hcase a ha fun h => ht h.1).1 htv).2.2
    · intro a ha htv k hk hne
      exact ((hcase a ha fun h => hne h.2).1 htv).2.1 k hk
    · intro a ha htv k hk
      by_cases hv : valuesOf us a = []
      · simp [hv]
      · exact ((hcase a ha fun h => hv h.2).1 htv).1 k hk
  · intro h
    refine ⟨⟨?_, h.group⟩, ?_⟩
    · cases needs with
      | nothing | done => rfl
      | values o =>
        obtain ⟨ho, ht⟩ := hn o rfl
        have hv := h.some o ho.1 ho.2 ht
        simp [Matches.count, meaning_apply hp ho.1, ht, hv]
    · intro a ha
      by_cases hne : times us a.name = 0 ∧ valuesOf us a = []
      · rw [if_pos hne]
        cases hr : a.required with
        | false => rfl
        | true =>
          exfalso
          rcases h.required a ha hr with h1 | h1
          · exact h1 hne.1
          · exact valuesOf_default h1 hne.2
      · rw [if_neg hne, hmatched a ha]
        refine ⟨fun htv => ?_, h.once a ha⟩
        have hv : valuesOf us a ≠ [] := by
          intro hv
          by_cases ht : times us a.name = 0
          · exact hne ⟨ht, hv⟩
          · exact h.some a ha htv ht hv
        exact ⟨h.few a ha htv, fun k hk => h.enough a ha htv k hk hv, hv⟩

/-- The words of some uses: accepted with the meaning of the uses if these are in order, refused otherwise. -/
theorem parse_line {app : App} (hp : Proper app) {ws : List Text} {us : List Use} (h : Line app ws us) :
    (Admissible app us → parse app ws = .ok (meaning app us)) ∧ (¬Admissible app us → parse app ws = .error .error) := by
  have hs := steps_line hp h (s := start) rfl (fun _ e => nomatch e)
  have hstart : start.found = fun _ => none := rfl
  rw [hstart] at hs
  unfold parse
  rw [show (⟨.nothing, fun _ => none, false⟩ : State) = start from rfl]
  rcases hs with ⟨s, h1, h2, h3⟩ | ⟨h1, o, ho, htv, k, hk, hlt⟩
  · rw [h1]
    simp only
    rw [h2, show ext (fun _ => none) us = tally us from rfl, addDefaults_meaning hp h.mem]
    have hv := valid_iff hp (us := us) (needs := s.needs) fun o e => by
      obtain ⟨h4, h5⟩ := h3 o e
      refine ⟨h4, fun ht => ?_⟩
      rw [h2, show ext (fun _ => none) us = tally us from rfl, tally_apply, if_pos ht] at h5
      cases h5
    constructor
    · intro ha
      rw [if_pos (hv.2 ha)]
    · intro ha
      rw [if_neg fun e => ha (hv.1 e)]
  · rw [h1]
    refine ⟨fun ha => ?_, fun _ => rfl⟩
    exfalso
    have := ha.few o ho htv k hk
    have hg : given us o.name ≠ [] := by
      intro e
      rw [e] at hlt
      simp [Matches.count] at hlt
    unfold valuesOf at this
    rw [if_neg hg] at this
    simp [Matches.count] at hlt
    omega

/-- Only words of uses are accepted. -/
theorem parse_sound {app : App} {ws : List Text} {m : Matches} (h : parse app ws = .ok m) : ∃ us, Line app ws us := by
  unfold parse at h
  cases hs : steps app ws ⟨.nothing, fun _ => none, false⟩ with
  | error e => rw [hs] at h; cases h
  | ok s => exact (steps_sound rfl hs).line (by simp)

end Cli
end GC
