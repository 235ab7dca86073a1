/-
Property C122: the manual in README.md tells the truth about the command lines.
-/
import Verif.Spec.Manual
import Verif.Props.Told
namespace GC
namespace Manual
open Text Clap Cli

/-- The manual lists exactly the declared arguments. -/
theorem manual_app (t : Tool) : (∀ a, a ∈ (manual t).args ↔ a ∈ t.app.args) ∧ ∀ n, n ∈ (manual t).group ↔ n ∈ t.app.group := by
  have h : ((manual t).args ⊆ t.app.args ∧ t.app.args ⊆ (manual t).args) ∧
      (manual t).group ⊆ t.app.group ∧ t.app.group ⊆ (manual t).group := by
    cases t <;> refine ⟨⟨?_, ?_⟩, ?_, ?_⟩ <;> decide +kernel
  exact ⟨fun a => ⟨fun x => h.1.1 x, fun x => h.1.2 x⟩, fun n => ⟨fun x => h.2.1 x, fun x => h.2.2 x⟩⟩

theorem letters_of {app app' : App} (h : ∀ a, a ∈ app.args ↔ a ∈ app'.args) {cs : Text} {us : List Use} (hl : Letters app cs us) :
    Letters app' cs us := by
  induction hl with
  | nil => exact .nil
  | cons h1 h2 _ ih => exact .cons ⟨(h _).1 h1.1, h1.2⟩ h2 ih

theorem line_of {app app' : App} (h : ∀ a, a ∈ app.args ↔ a ∈ app'.args) {ws : List Text} {us : List Use} (hl : Line app ws us) :
    Line app' ws us := by
  have hf : ∀ {f}, App.IsFlag app f → App.IsFlag app' f := fun hf => ⟨(h _).1 hf.1, hf.2⟩
  have ho : ∀ {o}, App.IsOption app o → App.IsOption app' o := fun ho => ⟨(h _).1 ho.1, ho.2⟩
  induction hl with
  | nil => exact .nil
  | stop => exact .stop
  | flag k h1 h2 _ ih => exact .flag k (hf h1) h2 ih
  | flagText k t h1 h2 _ ih => exact .flagText k t (hf h1) h2 ih
  | long k h1 h2 h3 h4 _ ih => exact .long k (ho h1) h2 h3 h4 ih
  | longEq k j h1 h2 h3 h4 _ ih => exact .longEq k j (ho h1) h2 h3 h4 ih
  | letters h1 h2 _ ih => exact .letters h1 (letters_of h h2) ih
  | short h1 h2 h3 h4 h5 _ ih => exact .short (letters_of h h1) (ho h2) h3 h4 h5 ih
  | glued h1 h2 h3 h4 h5 h6 h7 _ ih => exact .glued (letters_of h h1) (ho h2) h3 h4 h5 h6 h7 ih
  | gluedEq j h1 h2 h3 h4 h5 _ ih => exact .gluedEq j (letters_of h h1) (ho h2) h3 h4 h5 ih

theorem admissible_of {app app' : App} (h : ∀ a, a ∈ app.args ↔ a ∈ app'.args) (hg : ∀ n, n ∈ app.group ↔ n ∈ app'.group) {us : List Use}
    (ha : Admissible app us) : Admissible app' us := by
  refine ⟨fun a m => ha.required a ((h a).2 m), fun a m => ha.once a ((h a).2 m), fun a m => ha.some a ((h a).2 m),
    fun a m => ha.enough a ((h a).2 m), fun a m => ha.few a ((h a).2 m), fun hne => ?_⟩
  have : app.group ≠ [] := by
    intro e
    obtain ⟨n, hn⟩ := List.exists_mem_of_ne_nil _ hne
    have := (hg n).2 hn
    rw [e] at this
    cases this
  obtain ⟨n, h1, h2, h3⟩ := ha.group this
  exact ⟨n, (hg n).1 h1, h2, fun n' h4 => h3 n' ((hg n').2 h4)⟩

theorem byManual_iff (t : Tool) (ws : List Text) (us : List Use) : ByManual t ws us ↔ Cli.InOrder t ws us := by
  obtain ⟨h, hg⟩ := manual_app t
  exact ⟨fun x => ⟨line_of h x.1, admissible_of h hg x.2⟩,
    fun x => ⟨line_of (fun a => (h a).symm) x.1, admissible_of (fun a => (h a).symm) (fun n => (hg n).symm) x.2⟩⟩

theorem asksClap_of {app app' : App} (h : ∀ a, a ∈ app.args ↔ a ∈ app'.args) {e : Stop} {w : Text} (ha : AsksClap app e w) :
    AsksClap app' e w := by
  have key : ∀ {name : String} {c : Char}, Tells app name c w → Tells app' name c w := by
    rintro name c (h1 | ⟨cs, fs, rest, h1, h2, h3⟩)
    · exact .inl h1
    · exact .inr ⟨cs, fs, rest, letters_of h h1, fun a m => h2 a ((h a).2 m), h3⟩
  cases e with
  | help => exact key ha
  | version => exact key ha
  | error => exact ha

/-- C122: the command lines that a binary accepts are exactly those of the manual, and what they ask for is what they say. For all words, and
all binaries but gc-build. -/
theorem C122_accepted (t : Tool) (ht : t ≠ .build) (ws : List Text) (r : Option Invocation) :
    commandLine t ws = .ok r ↔ ∃ us, ByManual t ws us ∧ r = some (asks t us) := by
  constructor
  · intro h
    by_cases hu : ∃ us, Cli.InOrder t ws us
    · obtain ⟨us, hu⟩ := hu
      refine ⟨us, (byManual_iff t ws us).2 hu, ?_⟩
      rw [C116_asks t ht ws us hu.1 hu.2] at h
      cases h
      rfl
    · obtain ⟨e, he⟩ := C116_refused t ws fun us h1 h2 => hu ⟨us, h1, h2⟩
      rw [he] at h
      cases h
  · rintro ⟨us, hu, rfl⟩
    have hu := (byManual_iff t ws us).1 hu
    exact C116_asks t ht ws us hu.1 hu.2

/-- C122 for gc-build (partial). Missing: the value of `--verbose` has no effect, it is verbose in any case (C118). -/
theorem C122_accepted_build_partial (ws : List Text) (r : Option Invocation) :
    commandLine .build ws = .ok r ↔ ∃ us, ByManual .build ws us ∧ r = some (.build (oneOr us "path" ['.']) true) := by
  constructor
  · intro h
    by_cases hu : ∃ us, Cli.InOrder .build ws us
    · obtain ⟨us, hu⟩ := hu
      refine ⟨us, (byManual_iff .build ws us).2 hu, ?_⟩
      rw [C116_asks_build ws us hu.1 hu.2] at h
      cases h
      rfl
    · obtain ⟨e, he⟩ := C116_refused .build ws fun us h1 h2 => hu ⟨us, h1, h2⟩
      rw [he] at h
      cases h
  · rintro ⟨us, hu, rfl⟩
    have hu := (byManual_iff .build ws us).1 hu
    exact C116_asks_build ws us hu.1 hu.2

/-- C122: what the manual says about help and version: if a word asks for it and the words before it are uses of arguments of the manual with
not too many values, clap answers. -/
theorem C122_told_if_asked (t : Tool) (pre post : List Text) (w : Text) (us : List Use) (e : Stop) (hl : Line (manual t) pre us)
    (hd : ['-', '-'] ∉ pre) (hv : ∀ a ∈ (manual t).args, ∀ k, a.maxValues = some k → (given us a.name).length ≤ k)
    (hw : AsksClap (manual t) e w) : commandLine t (pre ++ w :: post) = .error e :=
  C116_told_if_asked t pre post w us e (line_of (manual_app t).1 hl) hd (fun a m => hv a (((manual_app t).1 a).2 m))
    (asksClap_of (manual_app t).1 hw)

/-- C122: clap answers only if a word asks for it. -/
theorem C122_told_only_if_asked (t : Tool) (ws : List Text) (e : Stop) (he : e ≠ .error) (h : commandLine t ws = .error e) :
    ∃ pre w post us, ws = pre ++ w :: post ∧ Line (manual t) pre us ∧ ['-', '-'] ∉ pre ∧ AsksClap (manual t) e w := by
  obtain ⟨pre, w, post, us, h1, h2, h3, h4⟩ := C116_told_only_if_asked t ws e he h
  have hs := fun a => ((manual_app t).1 a).symm
  exact ⟨pre, w, post, us, h1, line_of hs h2, h3, asksClap_of hs h4⟩

/-- `C122_told_only_if_asked` and `C122_told_if_asked` for a line with `-V` after a flag. -/
example := C122_told_only_if_asked .clean (["-f", "-V"].map String.toList) .version (by decide) rfl
example : commandLine .clean ([] ++ "--help".toList :: [['x']]) = .error .help :=
  C122_told_if_asked .clean [] [['x']] _ [] .help .nil (by simp) (by decide) (by
    exact .inl ⟨2, [], by decide, .inl rfl, by decide⟩)

theorem letters_one {app : App} {c : Char} {us : List Use} (h : Letters app [c] us) :
    ∃ f, f ∈ app.args ∧ f.short = some c ∧ us = [⟨f, []⟩] := by
  cases h with
  | cons h1 h2 h3 =>
    cases h3
    exact ⟨_, h1.1, h2, rfl⟩

theorem split_one {cs v : Text} {c : Char} (h : cs ++ c :: v = ['h']) : cs = [] ∧ c = 'h' ∧ v = [] := by
  cases cs with
  | nil => simpa using h
  | cons a cs => simp at h

/-- In gc-cycle a first word `-h` is a use of `--head`. -/
theorem head_used {ws : List Text} {us : List Use} (h : Line (manual .cycle) (['-', 'h'] :: ws) us) : used us "head" = true := by
  have hletter : ∀ a ∈ (manual .cycle).args, a.short = some 'h' → a = flag (some 'h') "head" := by decide +kernel
  generalize hw : (['-', 'h'] :: ws) = words at h
  have hk : ∀ {k : Nat} {rest : Text}, 2 ≤ k → ['-', 'h'] = List.replicate k '-' ++ rest → False := by
    intro k rest hk e
    obtain ⟨k, rfl⟩ : ∃ j, k = j + 2 := ⟨k - 2, by omega⟩
    simp [List.replicate_succ] at e
  cases h with
  | nil => cases hw
  | stop => simp at hw
  | flag k h1 h2 h3 => exact (hk h2 (List.cons.inj hw).1).elim
  | flagText k t h1 h2 h3 => exact (hk h2 (by simpa using (List.cons.inj hw).1)).elim
  | long k h1 h2 h3 h4 h5 => exact (hk h2 (List.cons.inj hw).1).elim
  | longEq k j h1 h2 h3 h4 h5 => exact (hk h2 (by simpa using (List.cons.inj hw).1)).elim
  | letters h1 h2 h3 =>
    have e := (List.cons.inj (List.cons.inj hw).1).2
    subst e
    obtain ⟨f, hf, hs, rfl⟩ := letters_one h2
    rw [hletter f hf hs]
    simp [used, times, flag]
  | short h1 h2 h3 h4 h5 h6 =>
    have e := (List.cons.inj (List.cons.inj hw).1).2
    obtain ⟨rfl, rfl, _⟩ := split_one e.symm
    exact absurd h2.2 (by rw [hletter _ h2.1 h3]; decide)
  | glued h1 h2 h3 h4 h5 h6 h7 h8 =>
    have e := (List.cons.inj (List.cons.inj hw).1).2
    obtain ⟨rfl, rfl, rfl⟩ := split_one e.symm
    exact absurd rfl h4
  | gluedEq j h1 h2 h3 h4 h5 h6 =>
    have e := (List.cons.inj (List.cons.inj hw).1).2
    obtain ⟨rfl, rfl, e⟩ := split_one e.symm
    obtain ⟨j, rfl⟩ : ∃ i, j = i + 1 := ⟨j - 1, by omega⟩
    simp [List.replicate_succ] at e

/-- C122: `-h` as the first word asks for the help text, except in gc-cycle, where it is `--head`; `--help`, `-V` and `--version` always ask
for what they say. -/
theorem C122_help (t : Tool) (post : List Text) :
    (t ≠ .cycle → commandLine t (['-', 'h'] :: post) = .error .help) ∧ (∀ ws m, commandLine .cycle (['-', 'h'] :: ws) = .ok m →
      ∃ path a, m = some (.query path (.cycle { head := true } a))) ∧
    commandLine t ("--help".toList :: post) = .error .help ∧ commandLine t ("--version".toList :: post) = .error .version ∧
    commandLine t (['-', 'V'] :: post) = .error .version := by
  have key := fun w e h => C122_told_if_asked t [] post w [] e .nil (by simp) (by simp [given]) h
  refine ⟨fun ht => key _ .help (.inr ⟨[], [], [], .nil, ?_, rfl⟩), ?_, key _ .help (.inl ⟨2, [], by decide, .inl rfl, rfl⟩),
    key _ .version (.inl ⟨2, [], by decide, .inl rfl, rfl⟩), key _ .version (.inr ⟨[], [], [], .nil, ?_, rfl⟩)⟩
  · cases t <;> first | exact absurd rfl ht | decide +kernel
  · intro ws m h
    obtain ⟨us, hu, rfl⟩ := (C122_accepted .cycle (by decide) _ m).1 h
    have hh := head_used hu.1
    obtain ⟨path, act, a, h1, h2⟩ : ∃ path act a, asks .cycle us = .query path (.cycle act a) ∧ act.head = used us "head" :=
      ⟨_, _, _, rfl, rfl⟩
    rw [h1] at h ⊢
    rw [hh] at h2
    refine ⟨path, a, ?_⟩
    rcases C116_one_action _ _ _ _ h with rfl | rfl | rfl | rfl | rfl | rfl | rfl | ⟨_, rfl⟩
    all_goals first | rfl | cases h2
  · cases t <;> decide +kernel

/-- Lines of the manual, in other words than those of the code. -/
example : commandLine .add (["-X", "1", "2", "3", "-rv4"].map String.toList) = .ok (some (.add ['.']
      { vertex := some [['4']], reverse := true, star := some [['1'], ['2'], ['3']] })) ∧
    commandLine .clean (["-fs", "-p", "d"].map String.toList) = .ok (some (.clean ['d'] true true)) ∧
    commandLine .delete (["-e", "1", "2", "--vertex", "3"].map String.toList) =
      .ok (some (.delete ['.'] (some [['3']]) (some [['1'], ['2']]))) := ⟨rfl, rfl, rfl⟩
/-- Uses of arguments of the manual. -/
example : ByManual .clean ["-fs".toList] [⟨flag1 (some 'f') "force", []⟩, ⟨flag1 (some 's') "silent", []⟩] := by
  refine ⟨.letters (cs := ['f', 's']) (us := []) (by simp) (.cons ⟨by decide, rfl⟩ rfl (.cons ⟨by decide, rfl⟩ rfl .nil)) .nil, ?_⟩
  exact ⟨by decide, by decide, by decide, by decide, by decide, by decide⟩
example : ByManual .build [] [] := ⟨.nil, by decide, by decide, by decide, by decide, by decide, by decide⟩
/-- Lines that are not in the manual are refused. -/
example : commandLine .add (["-S", "1", "2"].map String.toList) = .error .error ∧
    commandLine .clean (["-f", "yes"].map String.toList) = .error .error ∧
    commandLine .build (["-v", "no"].map String.toList) = .ok (some (.build ['.'] true)) := ⟨rfl, rfl, rfl⟩

end Manual
end GC
