/-
C116: when clap answers a command line with its help text or the version, and exactly one action of gc-cycle.
-/
import Verif.Props.Cli
import Verif.Spec.CycleReport
namespace GC
namespace Cli
open Text Clap Store

theorem steps_append {app : App} {as bs : List Text} {s s' : State} (h : steps app as s = .ok s') :
    steps app (as ++ bs) s = steps app bs s' := by
  induction as generalizing s with
  | nil => cases h; rfl
  | cons t ts ih =>
    rw [steps] at h
    rw [List.cons_append, steps]
    cases h1 : step app t s with
    | error e => rw [h1] at h; cases h
    | ok s1 =>
      rw [h1] at h
      exact ih h

/-- Words before the first one that stops the parser. -/
theorem steps_error {app : App} {ws : List Text} {s : State} {e : Stop} (h : steps app ws s = .error e) :
    ∃ pre w post s', ws = pre ++ w :: post ∧ steps app pre s = .ok s' ∧ step app w s' = .error e := by
  induction ws generalizing s with
  | nil => cases h
  | cons t ts ih =>
    rw [steps] at h
    cases h1 : step app t s with
    | error e' =>
      rw [h1] at h
      cases h
      exact ⟨[], t, ts, s, rfl, rfl, h1⟩
    | ok s1 =>
      rw [h1] at h
      obtain ⟨pre, w, post, s', rfl, h2, h3⟩ := ih h
      refine ⟨t :: pre, w, post, s', rfl, ?_, h3⟩
      rw [steps, h1]
      exact h2

theorem parseOpt_trailing (o : Arg) (v : Option Text) (b : Bool) (s : State) : (parseOpt o v b s).trailing = s.trailing := by
  unfold parseOpt
  split <;> rfl

theorem step_trailing {app : App} {t : Text} {s s' : State} (h : step app t s = .ok s') :
    s.trailing = false ∧ (s'.trailing = true ↔ t = ['-', '-']) := by
  unfold step at h
  cases ht : s.trailing with
  | true => rw [ht] at h; simp at h
  | false =>
    refine ⟨rfl, ?_⟩
    rw [ht] at h
    simp only [Bool.false_eq_true, if_false] at h
    by_cases hd : t = ['-', '-']
    · subst hd
      have hn : isNew s.needs ['-', '-'] = true := by cases hn : s.needs <;> rfl
      simp only [hn, if_true] at h
      cases h
      simp
    · simp only [hd, if_false, iff_false, Bool.not_eq_true] at h ⊢
      by_cases hn : isNew s.needs t = true
      · rw [if_pos hn] at h
        by_cases h2 : ['-', '-'].isPrefixOf t = true
        · rw [if_pos h2] at h
          unfold parseLong at h
          dsimp only at h
          split at h
          · cases h
            rw [parseOpt_trailing, ht]
          · split at h
            · cases h
            · split at h
              · cases h
              · split at h
                · cases h
                  exact ht
                · cases h
        · rw [if_neg h2] at h
          split at h
          · rw [(parseShort_sound h).1, ht]
          · cases h
      · rw [if_neg hn] at h
        split at h
        · cases h
          exact ht
        · cases h

theorem steps_trailing_iff {app : App} {ts : List Text} {s s' : State} (ht : s.trailing = false) (h : steps app ts s = .ok s') :
    s'.trailing = false ↔ ['-', '-'] ∉ ts := by
  induction ts generalizing s with
  | nil => cases h; simp [ht]
  | cons t ts ih =>
    rw [steps] at h
    cases h1 : step app t s with
    | error e => rw [h1] at h; cases h
    | ok s1 =>
      rw [h1] at h
      have h2 := (step_trailing h1).2
      cases h3 : s1.trailing with
      | true =>
        cases steps_trailing h3 h
        cases h
        simp [h3, h2.1 h3]
      | false =>
        rw [ih h3 h, List.mem_cons, not_or]
        have : t ≠ ['-', '-'] := fun e => by rw [h2.2 e] at h3; cases h3
        exact ⟨fun h => ⟨this.symm, h⟩, fun h => h.2⟩

theorem optShort_none {app : App} {c : Char} (h : ∀ a ∈ app.args, a.short ≠ some c) : app.optShort c = none :=
  find_none fun b hb => by simp [h b hb]

theorem flagShort_none {app : App} {c : Char} (h : ∀ a ∈ app.args, a.short ≠ some c) : app.flagShort c = none :=
  find_none fun b hb => by simp [h b hb]

theorem parseShort_error {app : App} {cs : Text} {s : State} {e : Stop} (he : e ≠ .error) (h : parseShort app cs s = .error e) :
    ∃ c, (e = .help ∧ c = 'h' ∨ e = .version ∧ c = 'V') ∧
      ∃ cs1 fs rest, Letters app cs1 fs ∧ (∀ a ∈ app.args, a.short ≠ some c) ∧ cs = cs1 ++ c :: rest := by
  induction cs generalizing s with
  | nil => cases h
  | cons c cs ih =>
    rw [parseShort] at h
    cases ho : app.optShort c with
    | some o => rw [ho] at h; cases h
    | none =>
      rw [ho] at h
      simp only at h
      cases hf : app.flagShort c with
      | some f =>
        rw [hf] at h
        obtain ⟨h1, h2⟩ := flagShort_of hf
        obtain ⟨d, h3, cs1, fs, rest, h4, h5, rfl⟩ := ih h
        exact ⟨d, h3, c :: cs1, _, rest, .cons h1 h2 h4, h5, rfl⟩
      | none =>
        rw [hf] at h
        simp only at h
        have hno : ∀ a ∈ app.args, a.short ≠ some c := by
          intro a ha hc
          have k1 := List.find?_eq_none.1 ho a ha
          have k2 := List.find?_eq_none.1 hf a ha
          cases ht : a.takesValue <;> simp_all
        by_cases hc : c = 'h'
        · rw [if_pos hc] at h
          cases h
          exact ⟨c, .inl ⟨rfl, hc⟩, [], [], cs, .nil, hno, rfl⟩
        · rw [if_neg hc] at h
          by_cases hv : c = 'V'
          · rw [if_pos hv] at h
            cases h
            exact ⟨c, .inr ⟨rfl, hv⟩, [], [], cs, .nil, hno, rfl⟩
          · rw [if_neg hv] at h
            cases h
            exact absurd rfl he

theorem asksClap_of {app : App} {e : Stop} {name : String} {c : Char} {w : Text} (h : e = .help ∧ name = "help" ∧ c = 'h' ∨ e = .version ∧ name = "version" ∧ c = 'V')
    (hw : Tells app name c w) : AsksClap app e w := by
  rcases h with ⟨rfl, rfl, rfl⟩ | ⟨rfl, rfl, rfl⟩ <;> exact hw

theorem head_drop (t : Text) : t.dropWhile (· != '=') = [] ∨ (t.dropWhile (· != '=')).head? = some '=' := by
  induction t with
  | nil => exact .inl rfl
  | cons c t ih =>
    by_cases hc : c = '='
    · subst hc; right; rfl
    · have : (c != '=') = true := by simp [hc]
      rw [List.dropWhile_cons, if_pos this]
      exact ih

theorem step_error {app : App} {w : Text} {s : State} {e : Stop} (he : e ≠ .error) (h : step app w s = .error e) :
    s.trailing = false ∧ AsksClap app e w := by
  unfold step at h
  cases ht : s.trailing with
  | true => rw [ht] at h; simp at h; exact absurd h.symm he
  | false =>
    refine ⟨rfl, ?_⟩
    rw [ht] at h
    simp only [Bool.false_eq_true, if_false] at h
    by_cases hn : isNew s.needs w = true
    · rw [if_pos hn] at h
      by_cases hd : w = ['-', '-']
      · rw [if_pos hd] at h; cases h
      rw [if_neg hd] at h
      by_cases h2 : ['-', '-'].isPrefixOf w = true
      · rw [if_pos h2] at h
        unfold parseLong at h
        dsimp only at h
        obtain ⟨k, h3, h4⟩ : ∃ k, w = List.replicate k '-' ++ w.dropWhile (· == '-') ∧ 2 ≤ k := by
          obtain ⟨k, h3, h4⟩ := dropWhile_spec '-' w
          refine ⟨k, h3, ?_⟩
          obtain ⟨rest, hr⟩ := List.isPrefixOf_iff_prefix.1 h2
          generalize w.dropWhile (· == '-') = d at h3 h4
          subst hr
          match k, h3 with
          | 0, h3 => exact absurd (by rw [← show _ = d from h3]; rfl) h4
          | 1, h3 =>
            have h3 : '-' :: rest = d := by simpa using h3
            exact absurd (by rw [← h3]; rfl) h4
          | k + 2, _ => omega
        have h5 : w.dropWhile (· == '-') = (w.dropWhile (· == '-')).takeWhile (· != '=') ++ (w.dropWhile (· == '-')).dropWhile (· != '=') :=
          List.takeWhile_append_dropWhile.symm
        have key : ∀ name : String, (w.dropWhile (· == '-')).takeWhile (· != '=') = name.toList → ∀ c, Tells app name c w := by
          intro name hname c
          refine .inl ⟨k, (w.dropWhile (· == '-')).dropWhile (· != '='), h4, head_drop _, ?_⟩
          rw [← hname, ← h5]
          exact h3
        split at h
        · cases h
        · split at h
          · rename_i hname
            cases h
            exact key "help" hname _
          · split at h
            · rename_i hname
              cases h
              exact key "version" hname _
            · split at h
              · cases h
              · cases h
                exact absurd rfl he
      · rw [if_neg h2] at h
        split at h
        · rename_i hh
          obtain ⟨c, h3, cs1, fs, rest, h4, h5, h6⟩ := parseShort_error he h
          have hw : w = '-' :: w.tail := by
            simp only [Bool.and_eq_true, beq_iff_eq] at hh
            cases w with
            | nil => simp at hh
            | cons x xs => simp at hh; simp [hh.1]
          rw [h6] at hw
          rcases h3 with ⟨rfl, rfl⟩ | ⟨rfl, rfl⟩
          · exact .inr ⟨cs1, fs, rest, h4, h5, hw⟩
          · exact .inr ⟨cs1, fs, rest, h4, h5, hw⟩
        · cases h
          exact absurd rfl he
    · rw [if_neg hn] at h
      split at h
      · cases h
      · cases h
        exact absurd rfl he

theorem not_name {app : App} {n : Text} (h : ∀ a ∈ app.args, a.name ≠ n) : app.optLong n = none :=
  find_none fun b hb => by simp [h b hb]

theorem tells_long {app : App} {name : String} {e : Stop} (he : e = .help ∧ name = "help" ∨ e = .version ∧ name = "version") (hp : Proper app)
    {k : Nat} (hk : 2 ≤ k) {rest : Text} (hr : rest = [] ∨ rest.head? = some '=') {s : State} (ht : s.trailing = false) :
    step app (List.replicate k '-' ++ (name.toList ++ rest)) s = .error e := by
  have hne : name.toList ≠ [] := by rcases he with ⟨_, rfl⟩ | ⟨_, rfl⟩ <;> decide
  have hh : (name.toList ++ rest).head? ≠ some '-' := by rcases he with ⟨_, rfl⟩ | ⟨_, rfl⟩ <;> simp
  have heq : '=' ∉ name.toList := by rcases he with ⟨_, rfl⟩ | ⟨_, rfl⟩ <;> decide
  rw [step_hyphens ht (hyphens_prefix hk _) (hyphens_ne hk (by simp [hne]))]
  unfold parseLong
  rw [dropWhile_replicate k hh]
  dsimp only
  rw [takeWhile_name heq hr]
  rcases he with ⟨rfl, rfl⟩ | ⟨rfl, rfl⟩
  · rw [not_name fun a ha => (hp.reserved a ha).1]
    rfl
  · rw [not_name fun a ha => (hp.reserved a ha).2]
    rfl

theorem tells_letter {app : App} {c : Char} {e : Stop} (he : e = .help ∧ c = 'h' ∨ e = .version ∧ c = 'V') (hp : Proper app)
    {cs rest : Text} {fs : List Use} (hl : Letters app cs fs) (hn : ∀ a ∈ app.args, a.short ≠ some c) {s : State} (ht : s.trailing = false) :
    step app ('-' :: (cs ++ c :: rest)) s = .error e := by
  have h1 : step app ('-' :: (cs ++ c :: rest)) s = parseShort app (cs ++ c :: rest) s := by
    cases cs with
    | nil => exact step_letters ht (by rcases he with ⟨_, rfl⟩ | ⟨_, rfl⟩ <;> decide)
    | cons d ds =>
      have := hl.ne_hyphen hp
      exact step_letters ht (by intro e; exact this (by simp [e]))
  rw [h1]
  obtain ⟨needs, h2, _⟩ := letters_steps hp hl (c :: rest) s
  rw [h2, parseShort, optShort_none hn, flagShort_none hn]
  rcases he with ⟨rfl, rfl⟩ | ⟨rfl, rfl⟩ <;> rfl

theorem step_asks {app : App} (hp : Proper app) {e : Stop} {w : Text} (h : AsksClap app e w) {s : State} (ht : s.trailing = false) :
    step app w s = .error e := by
  cases e with
  | error => exact h.elim
  | help =>
    rcases h with ⟨k, rest, hk, hr, rfl⟩ | ⟨cs, fs, rest, hl, hn, rfl⟩
    · exact tells_long (.inl ⟨rfl, rfl⟩) hp hk hr ht
    · exact tells_letter (.inl ⟨rfl, rfl⟩) hp hl hn ht
  | version =>
    rcases h with ⟨k, rest, hk, hr, rfl⟩ | ⟨cs, fs, rest, hl, hn, rfl⟩
    · exact tells_long (.inr ⟨rfl, rfl⟩) hp hk hr ht
    · exact tells_letter (.inr ⟨rfl, rfl⟩) hp hl hn ht

/-- C116: clap answers with its help text or the version only if a word asks for it, and the words before that one are uses of arguments
without `--`. -/
theorem C116_told_only_if_asked (t : Tool) (ws : List Text) (e : Stop) (he : e ≠ .error) (h : commandLine t ws = .error e) :
    ∃ pre w post us, ws = pre ++ w :: post ∧ Line t.app pre us ∧ ['-', '-'] ∉ pre ∧ AsksClap t.app e w := by
  have hp : steps t.app ws start = .error e := by
    unfold commandLine parse at h
    rw [show (⟨.nothing, fun _ => none, false⟩ : State) = start from rfl] at h
    cases hs : steps t.app ws start with
    | error e' => rw [hs] at h; cases h; rfl
    | ok s =>
      rw [hs] at h
      dsimp only at h
      by_cases hv : valid t.app s.needs (addDefaults t.app s.found) = true
      · rw [if_pos hv] at h; cases h
      · rw [if_neg hv] at h; cases h; exact absurd rfl he
  obtain ⟨pre, w, post, s', rfl, h1, h2⟩ := steps_error hp
  obtain ⟨us, hu⟩ := (steps_sound rfl h1).line (by simp [start])
  obtain ⟨h3, h4⟩ := step_error he h2
  exact ⟨pre, w, post, us, rfl, hu, (steps_trailing_iff rfl h1).1 h3, h4⟩

/-- `C116_told_only_if_asked` for a line with `-h` in third place. -/
example := C116_told_only_if_asked .csp (["-s", "1", "-h", "what"].map String.toList) .help (by decide) rfl

/-- C116: if a word asks for the help text or the version, and the words before it are uses of arguments with not too many values and
without `--`, clap answers, whatever else is wrong with the line. -/
theorem C116_told_if_asked (t : Tool) (pre post : List Text) (w : Text) (us : List Use) (e : Stop) (hl : Line t.app pre us)
    (hd : ['-', '-'] ∉ pre) (hv : ∀ a ∈ t.app.args, ∀ k, a.maxValues = some k → (given us a.name).length ≤ k) (hw : AsksClap t.app e w) :
    commandLine t (pre ++ w :: post) = .error e := by
  have hs := steps_line (proper t) hl (s := start) rfl (fun _ e => nomatch e)
  have : steps t.app (pre ++ w :: post) start = .error e := by
    rcases hs with ⟨s, h1, _, _⟩ | ⟨_, o, ho, _, k, hk, hlt⟩
    · rw [steps_append h1, steps, step_asks (proper t) hw ((steps_trailing_iff rfl h1).2 hd)]
    · have := hv o ho k hk
      simp [start, Matches.count] at hlt
      omega
  unfold commandLine parse
  rw [show (⟨.nothing, fun _ => none, false⟩ : State) = start from rfl, this]

example : commandLine .csp (["-s", "1", "--no-cycle", "-h", "what", "--ever"].map String.toList) = .error .help ∧
    commandLine .add (["-rV", "--"].map String.toList) = .error .version ∧
    commandLine .add (["--", "--help"].map String.toList) = .error .error ∧
    commandLine .cycle ["-h".toList] = .ok (some (.query ['.'] (.cycle { head := true } {}))) ∧
    commandLine .csp (["-s", "1", "2", "3", "--help"].map String.toList) = .error .error := ⟨rfl, rfl, rfl, rfl, rfl⟩
/-- The words before and the word itself, as the theorems want them. -/
example : ∃ us, Line (Tool.app .csp) (["-s", "1"].map String.toList) us ∧ ['-', '-'] ∉ ["-s", "1"].map String.toList ∧
    (∀ a ∈ (Tool.app .csp).args, ∀ k, a.maxValues = some k → (given us a.name).length ≤ k) ∧ AsksClap (Tool.app .csp) .help "-h".toList := by
  obtain ⟨o, ho⟩ : ∃ o, o = (((arg "start").shortName 's').req true |>.value true).atMost 1 := ⟨_, rfl⟩
  refine ⟨[⟨o, [['1']]⟩], .short (cs := []) (fs := []) (vals := [['1']]) (ws := []) (us := []) .nil ?_ (c := 's') (by rw [ho]; rfl) ?_ (.inr (by simp)) .nil, by decide, ?_, ?_⟩
  · rw [ho]; exact ⟨by simp [Tool.app, cspApp, endpointArgs], rfl⟩
  · intro v hv
    cases List.mem_singleton.1 hv
    exact .inl (by decide)
  · rw [ho]; decide
  · exact .inr ⟨[], [], [], .nil, by decide, rfl⟩

/-! ### One action -/

/-- C116: an accepted gc-cycle line asks for exactly one action. -/
theorem C116_one_action (ws : List Text) (path : Text) (act : GcCycle.Actions) (a : Args.CycleArgs)
    (h : commandLine .cycle ws = .ok (some (.query path (.cycle act a)))) : Main.OneAction act := by
  obtain ⟨m, hm⟩ : ∃ m, parse (Tool.app .cycle) ws = .ok m := by
    unfold commandLine at h
    cases hp : parse (Tool.app .cycle) ws with
    | error e => rw [hp] at h; cases h
    | ok m => exact ⟨m, rfl⟩
  obtain ⟨us, h1, h2, _⟩ := (C116_exact .cycle ws m).1 hm
  rw [C116_asks .cycle (by decide) ws us h1 h2] at h
  simp only [asks, Except.ok.injEq, Option.some.injEq, Invocation.query.injEq, Stream.Query.cycle.injEq] at h
  obtain ⟨_, rfl, _⟩ := h
  obtain ⟨n, hn, h3, h4⟩ := h2.group (by decide)
  have hz : ∀ n' : String, n'.toList ∈ (Tool.app .cycle).group → n'.toList ≠ n → times us n'.toList = 0 := by
    intro n' hg hne
    by_contra hc
    exact hne (h4 _ hg hc)
  have hu : ∀ n' : String, n'.toList ∈ (Tool.app .cycle).group → n'.toList ≠ n → used us n' = false := by
    intro n' hg hne
    simp [used, hz n' hg hne]
  have hone : ∀ n' : String, n'.toList ∈ (Tool.app .cycle).group → n'.toList ≠ n → oneOf us n' = none := by
    intro n' hg hne
    simp [oneOf, given_nil_of_times (hz n' hg hne)]
  simp only [Tool.app, cycleApp, List.mem_cons, List.not_mem_nil, or_false] at hn
  rcases hn with rfl | rfl | rfl | rfl | rfl | rfl | rfl | rfl
  · refine .inl ?_
    rw [show used us "girth" = true from decide_eq_true h3, 
      hu "hamiltonian" (by decide +kernel) (by decide +kernel), 
      hu "count" (by decide +kernel) (by decide +kernel), 
      hu "head" (by decide +kernel) (by decide +kernel), 
      hone "take-n" (by decide +kernel) (by decide +kernel), 
      hu "all" (by decide +kernel) (by decide +kernel), 
      hu "shortest" (by decide +kernel) (by decide +kernel), 
      hu "longest" (by decide +kernel) (by decide +kernel)]
  · refine .inr <| .inl ?_
    rw [hu "girth" (by decide +kernel) (by decide +kernel), 
      show used us "hamiltonian" = true from decide_eq_true h3, 
      hu "count" (by decide +kernel) (by decide +kernel), 
      hu "head" (by decide +kernel) (by decide +kernel), 
      hone "take-n" (by decide +kernel) (by decide +kernel), 
      hu "all" (by decide +kernel) (by decide +kernel), 
      hu "shortest" (by decide +kernel) (by decide +kernel), 
      hu "longest" (by decide +kernel) (by decide +kernel)]
  · refine .inr <| .inr <| .inl ?_
    rw [hu "girth" (by decide +kernel) (by decide +kernel), 
      hu "hamiltonian" (by decide +kernel) (by decide +kernel), 
      show used us "count" = true from decide_eq_true h3, 
      hu "head" (by decide +kernel) (by decide +kernel), 
      hone "take-n" (by decide +kernel) (by decide +kernel), 
      hu "all" (by decide +kernel) (by decide +kernel), 
      hu "shortest" (by decide +kernel) (by decide +kernel), 
      hu "longest" (by decide +kernel) (by decide +kernel)]
  · refine .inr <| .inr <| .inr <| .inr <| .inr <| .inl ?_
    rw [hu "girth" (by decide +kernel) (by decide +kernel), 
      hu "hamiltonian" (by decide +kernel) (by decide +kernel), 
      hu "count" (by decide +kernel) (by decide +kernel), 
      show used us "head" = true from decide_eq_true h3, 
      hone "take-n" (by decide +kernel) (by decide +kernel), 
      hu "all" (by decide +kernel) (by decide +kernel), 
      hu "shortest" (by decide +kernel) (by decide +kernel), 
      hu "longest" (by decide +kernel) (by decide +kernel)]
  · obtain ⟨v, hv⟩ : ∃ v, oneOf us "take-n" = some v := by
      have h5 := h2.some (((arg "take-n").shortName 'n').req false |>.value true) (by simp [Tool.app, cycleApp]) rfl h3
      rw [valuesOf_none rfl] at h5
      exact ⟨_, List.head?_eq_some_head h5⟩
    refine .inr <| .inr <| .inr <| .inr <| .inr <| .inr <| .inr ?_
    rw [hu "girth" (by decide +kernel) (by decide +kernel), 
      hu "hamiltonian" (by decide +kernel) (by decide +kernel), 
      hu "count" (by decide +kernel) (by decide +kernel), 
      hu "head" (by decide +kernel) (by decide +kernel), 
      hv, 
      hu "all" (by decide +kernel) (by decide +kernel), 
      hu "shortest" (by decide +kernel) (by decide +kernel), 
      hu "longest" (by decide +kernel) (by decide +kernel)]
    exact ⟨v, rfl⟩
  · refine .inr <| .inr <| .inr <| .inr <| .inr <| .inr <| .inl ?_
    rw [hu "girth" (by decide +kernel) (by decide +kernel), 
      hu "hamiltonian" (by decide +kernel) (by decide +kernel), 
      hu "count" (by decide +kernel) (by decide +kernel), 
      hu "head" (by decide +kernel) (by decide +kernel), 
      hone "take-n" (by decide +kernel) (by decide +kernel), 
      show used us "all" = true from decide_eq_true h3, 
      hu "shortest" (by decide +kernel) (by decide +kernel), 
      hu "longest" (by decide +kernel) (by decide +kernel)]
  · refine .inr <| .inr <| .inr <| .inl ?_
    rw [hu "girth" (by decide +kernel) (by decide +kernel), 
      hu "hamiltonian" (by decide +kernel) (by decide +kernel), 
      hu "count" (by decide +kernel) (by decide +kernel), 
      hu "head" (by decide +kernel) (by decide +kernel), 
      hone "take-n" (by decide +kernel) (by decide +kernel), 
      hu "all" (by decide +kernel) (by decide +kernel), 
      show used us "shortest" = true from decide_eq_true h3, 
      hu "longest" (by decide +kernel) (by decide +kernel)]
  · refine .inr <| .inr <| .inr <| .inr <| .inl ?_
    rw [hu "girth" (by decide +kernel) (by decide +kernel), 
      hu "hamiltonian" (by decide +kernel) (by decide +kernel), 
      hu "count" (by decide +kernel) (by decide +kernel), 
      hu "head" (by decide +kernel) (by decide +kernel), 
      hone "take-n" (by decide +kernel) (by decide +kernel), 
      hu "all" (by decide +kernel) (by decide +kernel), 
      hu "shortest" (by decide +kernel) (by decide +kernel), 
      show used us "longest" = true from decide_eq_true h3]

/-- `C116_one_action` for `gc-cycle --take-n 3 --min-length=2`. -/
example : Main.OneAction { takeN := some ['3'] } := C116_one_action (["--take-n", "3", "--min-length=2"].map String.toList) ['.'] _ _ rfl

example : commandLine .cycle (["--take-n", "3", "--min-length=2"].map String.toList) =
    .ok (some (.query ['.'] (.cycle { takeN := some ['3'] } { minLength := some ['2'] }))) := rfl

end Cli
end GC
