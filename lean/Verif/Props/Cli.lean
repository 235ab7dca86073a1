/-
Properties C116 (command lines mean what they say), C117 (typed sessions) and C118 (every documented option works).
-/
import Verif.Proofs.Cli
import Verif.Props.History
import Verif.Proofs.Args
namespace GC
namespace Cli
open Text Clap Store

/-- The declarations of all binaries make sense. -/
theorem proper (t : Tool) : Proper t.app := by
  cases t <;> exact ⟨by decide +kernel, by decide +kernel, by decide +kernel, by decide +kernel, by decide +kernel, by decide +kernel,
    by decide +kernel, by decide +kernel, by decide +kernel, by decide +kernel, by decide +kernel, by decide +kernel⟩

/-! ### C116 -/

/-- C116: the command lines that a binary accepts are exactly the words of uses of its arguments that are in order, and what it gets to know
is exactly what they say. For all words. -/
theorem C116_exact (t : Tool) (ws : List Text) (m : Matches) :
    parse t.app ws = .ok m ↔ ∃ us, Line t.app ws us ∧ Admissible t.app us ∧ m = meaning t.app us := by
  constructor
  · intro h
    obtain ⟨us, hl⟩ := parse_sound h
    by_cases ha : Admissible t.app us
    · rw [(parse_line (proper t) hl).1 ha] at h
      cases h
      exact ⟨us, hl, ha, rfl⟩
    · rw [(parse_line (proper t) hl).2 ha] at h
      cases h
  · rintro ⟨us, hl, ha, rfl⟩
    exact (parse_line (proper t) hl).1 ha

/-- C116: the same for any declarations that make sense. -/
theorem C116_exact_any (app : App) (hp : Proper app) (ws : List Text) (m : Matches) :
    parse app ws = .ok m ↔ ∃ us, Line app ws us ∧ Admissible app us ∧ m = meaning app us := by
  constructor
  · intro h
    obtain ⟨us, hl⟩ := parse_sound h
    by_cases ha : Admissible app us
    · rw [(parse_line hp hl).1 ha] at h
      cases h
      exact ⟨us, hl, ha, rfl⟩
    · rw [(parse_line hp hl).2 ha] at h
      cases h
  · rintro ⟨us, hl, ha, rfl⟩
    exact (parse_line hp hl).1 ha

theorem times_filter {us us' : List Use} {n : Text} (h : (us.filter fun u => u.arg.name = n) = us'.filter fun u => u.arg.name = n) :
    times us n = times us' n ∧ given us n = given us' n := by
  unfold times given
  rw [h]
  exact ⟨rfl, rfl⟩

/-- Uses that are the same for each argument mean the same. -/
theorem meaning_congr {app : App} {us us' : List Use}
    (h : ∀ n, (us.filter fun u => u.arg.name = n) = us'.filter fun u => u.arg.name = n) :
    meaning app us = meaning app us' ∧ (Admissible app us → Admissible app us') := by
  have ht : times us = times us' := funext fun n => (times_filter (h n)).1
  have hg : given us = given us' := funext fun n => (times_filter (h n)).2
  have hv : valuesOf us = valuesOf us' := by funext a; unfold valuesOf; rw [hg]
  constructor
  · funext n; unfold meaning; rw [ht, hv]
  · intro ha
    exact ⟨ht ▸ ha.required, ht ▸ ha.once, ht ▸ hv ▸ ha.some, hv ▸ ha.enough, hv ▸ ha.few, ht ▸ ha.group⟩

/-- C116: how the arguments are spelled (long, short, with an equality sign or without, flags together or apart) and in which order different
arguments are given makes no difference, also not for being refused. -/
theorem C116_spelling (t : Tool) (ws ws' : List Text) (us us' : List Use) (h : Line t.app ws us) (h' : Line t.app ws' us')
    (he : ∀ n, (us.filter fun u => u.arg.name = n) = us'.filter fun u => u.arg.name = n) : commandLine t ws = commandLine t ws' := by
  have hp : parse t.app ws = parse t.app ws' := by
    obtain ⟨h1, h2⟩ := parse_line (proper t) h
    obtain ⟨h3, h4⟩ := parse_line (proper t) h'
    obtain ⟨e, h5⟩ := meaning_congr (app := t.app) he
    obtain ⟨_, h6⟩ := meaning_congr (app := t.app) (us := us') (us' := us) fun n => (he n).symm
    by_cases ha : Admissible t.app us
    · rw [h1 ha, h3 (h5 ha), e]
    · rw [h2 ha, h4 fun ha' => ha (h6 ha')]
  unfold commandLine
  rw [hp]

/-! What is read from the meaning of uses. -/

/-- The application has an argument of this name without default value. -/
def declares (app : App) (n : String) : Bool := app.args.any fun a => a.name == n.toList && a.default.isNone
/-- The application has an argument of this name with this default value. -/
def declaresWith (app : App) (n : String) (d : Text) : Bool := app.args.any fun a => a.name == n.toList && a.default == some d
/-- The application has a required option of this name without default value. -/
def requires (app : App) (n : String) : Bool := app.args.any fun a => a.name == n.toList && a.default.isNone && a.required && a.takesValue

theorem meaning_declared {app : App} (hp : Proper app) {us : List Use} {n : String} (h : declares app n = true) :
    meaning app us n.toList = if times us n.toList = 0 then none else some ⟨times us n.toList, given us n.toList⟩ := by
  obtain ⟨a, ha, h1⟩ := List.any_eq_true.1 h
  simp only [Bool.and_eq_true, beq_iff_eq, Option.isNone_iff_eq_none] at h1
  obtain ⟨h1, h2⟩ := h1
  rw [← h1, meaning_apply hp ha, valuesOf_none h2]
  by_cases ht : times us a.name = 0
  · simp [ht, given_nil_of_times ht]
  · simp [ht]

theorem values_declared {app : App} (hp : Proper app) {us : List Use} {n : String} (h : declares app n = true) :
    (meaning app us).values n = listOf us n := by
  unfold Matches.values listOf
  rw [meaning_declared hp h]
  by_cases ht : times us n.toList = 0 <;> simp [ht]

theorem value_declared {app : App} (hp : Proper app) {us : List Use} {n : String} (h : declares app n = true) :
    (meaning app us).value n = oneOf us n := by
  unfold Matches.value oneOf
  rw [meaning_declared hp h]
  by_cases ht : times us n.toList = 0
  · simp [ht, given_nil_of_times ht]
  · simp [ht]

theorem present_declared {app : App} (hp : Proper app) {us : List Use} {n : String} (h : declares app n = true) :
    (meaning app us).present n = used us n := by
  unfold Matches.present used
  rw [meaning_declared hp h]
  by_cases ht : times us n.toList = 0 <;> simp [ht]

theorem value_default {app : App} (hp : Proper app) {us : List Use} {n : String} {d : Text} (h : declaresWith app n d = true) :
    (meaning app us).value n = some (oneOr us n d) := by
  obtain ⟨a, ha, h1⟩ := List.any_eq_true.1 h
  simp only [Bool.and_eq_true, beq_iff_eq] at h1
  obtain ⟨h1, h2⟩ := h1
  unfold Matches.value oneOr oneOf
  rw [← h1, meaning_apply hp ha, if_neg fun e => valuesOf_default (by simp [h2]) e.2]
  unfold valuesOf
  by_cases hg : given us a.name = []
  · simp [hg, h2]
  · rw [if_neg hg]
    cases hg' : given us a.name with
    | nil => exact absurd hg' hg
    | cons x xs => rfl

theorem value_required {app : App} (hp : Proper app) {us : List Use} (ha : Admissible app us) {n : String} (h : requires app n = true) (d : Text) :
    (meaning app us).value n = some (oneOr us n d) := by
  obtain ⟨a, hm, h1⟩ := List.any_eq_true.1 h
  simp only [Bool.and_eq_true, beq_iff_eq, Option.isNone_iff_eq_none] at h1
  obtain ⟨⟨⟨h1, h2⟩, h3⟩, h4⟩ := h1
  have ht : times us a.name ≠ 0 := (ha.required a hm h3).resolve_right fun e => e h2
  have hv := ha.some a hm h4 ht
  rw [valuesOf_none h2] at hv
  have hd : declares app n = true := List.any_eq_true.2 ⟨a, hm, by simp [h1, h2]⟩
  rw [value_declared hp hd]
  unfold oneOr oneOf
  rw [← h1]
  cases hg : given us a.name with
  | nil => exact absurd hg hv
  | cons x xs => rfl

/-- C116: a command line in order asks for what it says: the path (`.` if none is given), the values given to each option, in order, and the
flags that are used; all other options are not given (for gc-build see C118). No `unwrap` of a missing value is ever reached. -/
theorem C116_asks (t : Tool) (ht : t ≠ .build) (ws : List Text) (us : List Use) (h : Line t.app ws us) (ha : Admissible t.app us) :
    commandLine t ws = .ok (some (asks t us)) := by
  unfold commandLine
  rw [(parse_line (proper t) h).1 ha]
  simp only
  cases t with
  | build => exact absurd rfl ht
  | init =>
    have hp := proper .init
    simp only [read, asks, value_default hp (n := "path") (d := ['.']) (by decide +kernel), Option.getD_some]
  | add =>
    have hp := proper .add
    simp only [read, asks, addArgs, value_default hp (n := "path") (d := ['.']) (by decide +kernel), Option.map_some,
      values_declared hp (n := "vertex") (by decide +kernel), values_declared hp (n := "edge") (by decide +kernel),
      values_declared hp (n := "chain") (by decide +kernel), values_declared hp (n := "cycle") (by decide +kernel),
      values_declared hp (n := "star") (by decide +kernel), values_declared hp (n := "clique") (by decide +kernel),
      present_declared hp (n := "reverse") (by decide +kernel)]
  | delete =>
    have hp := proper .delete
    simp only [read, asks, value_default hp (n := "path") (d := ['.']) (by decide +kernel), Option.map_some,
      values_declared hp (n := "vertex") (by decide +kernel), values_declared hp (n := "edge") (by decide +kernel)]
  | clean =>
    have hp := proper .clean
    simp only [read, asks, value_default hp (n := "path") (d := ['.']) (by decide +kernel), Option.map_some,
      present_declared hp (n := "force") (by decide +kernel), present_declared hp (n := "silent") (by decide +kernel)]
  | random =>
    have hp := proper .random
    simp only [read, asks, value_default hp (n := "path") (d := ['.']) (by decide +kernel), Option.map_some, Option.bind_some,
      value_default hp (n := "vertex-count") (d := ['1', '0', '0']) (by decide +kernel),
      values_declared hp (n := "cycle") (by decide +kernel), value_declared hp (n := "edge-count") (by decide +kernel),
      present_declared hp (n := "force") (by decide +kernel), present_declared hp (n := "connected") (by decide +kernel)]
  | desc =>
    have hp := proper .desc
    simp only [read, asks, value_default hp (n := "path") (d := ['.']) (by decide +kernel), Option.map_some]
  | topoSort =>
    have hp := proper .topoSort
    simp only [read, asks, value_default hp (n := "path") (d := ['.']) (by decide +kernel), Option.map_some]
  | shortPath =>
    have hp := proper .shortPath
    simp only [read, asks, value_default hp (n := "path") (d := ['.']) (by decide +kernel), Option.map_some, Option.bind_some,
      value_required hp ha (n := "start") (by decide +kernel) [], value_required hp ha (n := "end") (by decide +kernel) []]
  | csp =>
    have hp := proper .csp
    simp only [read, asks, cspArgs, value_default hp (n := "path") (d := ['.']) (by decide +kernel), Option.map_some, Option.bind_some,
      value_required hp ha (n := "start") (by decide +kernel) [], value_required hp ha (n := "end") (by decide +kernel) [],
      values_declared hp (n := "include") (by decide +kernel), values_declared hp (n := "exclude") (by decide +kernel),
      values_declared hp (n := "ordered") (by decide +kernel), present_declared hp (n := "include-cycle") (by decide +kernel),
      present_declared hp (n := "no-cycle") (by decide +kernel), value_declared hp (n := "min-length") (by decide +kernel),
      value_declared hp (n := "max-length") (by decide +kernel), value_declared hp (n := "exact-length") (by decide +kernel),
      value_declared hp (n := "min-score") (by decide +kernel), value_declared hp (n := "max-score") (by decide +kernel),
      value_declared hp (n := "exact-score") (by decide +kernel)]
  | cycle =>
    have hp := proper .cycle
    simp only [read, asks, cycleArgs, cycleActions, value_default hp (n := "path") (d := ['.']) (by decide +kernel), Option.map_some,
      present_declared hp (n := "girth") (by decide +kernel), present_declared hp (n := "hamiltonian") (by decide +kernel),
      present_declared hp (n := "count") (by decide +kernel), present_declared hp (n := "head") (by decide +kernel),
      value_declared hp (n := "take-n") (by decide +kernel), present_declared hp (n := "all") (by decide +kernel),
      present_declared hp (n := "shortest") (by decide +kernel), present_declared hp (n := "longest") (by decide +kernel),
      values_declared hp (n := "include-all") (by decide +kernel), values_declared hp (n := "exclude-all") (by decide +kernel),
      values_declared hp (n := "include-all-edges") (by decide +kernel), values_declared hp (n := "exclude-all-edges") (by decide +kernel),
      value_declared hp (n := "min-length") (by decide +kernel),
      value_declared hp (n := "max-length") (by decide +kernel), value_declared hp (n := "exact-length") (by decide +kernel),
      value_declared hp (n := "min-score") (by decide +kernel), value_declared hp (n := "max-score") (by decide +kernel),
      value_declared hp (n := "exact-score") (by decide +kernel)]

/-- C116: for gc-build, too, except that it is verbose in any case (C118). -/
theorem C116_asks_build (ws : List Text) (us : List Use) (h : Line (Tool.app .build) ws us) (ha : Admissible (Tool.app .build) us) :
    commandLine .build ws = .ok (some (.build (oneOr us "path" ['.']) true)) := by
  have hp := proper .build
  unfold commandLine
  rw [(parse_line (proper .build) h).1 ha]
  have hv : (meaning (Tool.app .build) us).present "verbose" = true := by
    have := value_default hp (us := us) (n := "verbose") (d := "false".toList) (by decide +kernel)
    unfold Matches.value at this
    unfold Matches.present
    cases h : meaning (Tool.app .build) us "verbose".toList with
    | none => rw [h] at this; cases this
    | some x => rfl
  simp only [read, value_default hp (n := "path") (d := ['.']) (by decide +kernel), Option.map_some, hv]

/-- `C116_asks_build` for a line without words, and `C116_spelling` for a line and itself. -/
example : commandLine .build [] = .ok (some (.build ['.'] true)) := C116_asks_build [] [] .nil
  ⟨by decide, by decide, by decide, by decide, by decide, by decide⟩

/-- C116: all other command lines are refused (or ask for help or for the version): nothing is read, no part of them is obeyed. -/
theorem C116_refused (t : Tool) (ws : List Text) (h : ∀ us, Line t.app ws us → ¬Admissible t.app us) : ∃ e, commandLine t ws = .error e := by
  unfold commandLine
  cases hp : parse t.app ws with
  | error e => exact ⟨e, rfl⟩
  | ok m =>
    obtain ⟨us, h1, h2, _⟩ := (C116_exact t ws m).1 hp
    exact absurd h2 (h us h1)

/-! Lines of the README and others, as words. -/

example : commandLine .init [] = .ok (some (.init ['.'])) := rfl
example : commandLine .add ["--edge".toList, ['1'], ['2']] = .ok (some (.add ['.'] { edge := some [['1'], ['2']] })) := rfl
example : commandLine .add (["--clique", "1", "2", "3", "4", "5", "6", "7", "8", "9", "10"].map String.toList) =
    .ok (some (.add ['.'] { clique := some (["1", "2", "3", "4", "5", "6", "7", "8", "9", "10"].map String.toList) })) := rfl
example : commandLine .add (["-rv1", "2", "--path=x y", "-e", "3", "4", "-v", "5"].map String.toList) =
    .ok (some (.add "x y".toList { vertex := some [['1'], ['2'], ['5']], reverse := true, edge := some [['3'], ['4']] })) := rfl
example : commandLine .cycle (["-h", "--min-length", "3"].map String.toList) =
    .ok (some (.query ['.'] (.cycle { head := true } { minLength := some ['3'] }))) := rfl
/-- The hypotheses of the theorems are met by the words of such a line. -/
example : ∃ us, Line (Tool.app .add) (["-rv1", "2", "--path=x y", "-e", "3", "4", "-v", "5"].map String.toList) us ∧ Admissible (Tool.app .add) us := by
  obtain ⟨us, h1, h2, _⟩ := (C116_exact .add (["-rv1", "2", "--path=x y", "-e", "3", "4", "-v", "5"].map String.toList) _).1 rfl
  exact ⟨us, h1, h2⟩
/-- Not enough values, an option repeated, values after an equality sign, two actions, no action, a word that belongs to nothing: refused. -/
example : commandLine .add ["-e".toList, ['1']] = .error .error ∧
    commandLine .add (["-e", "1", "2", "-e", "3", "4"].map String.toList) = .error .error ∧
    commandLine .add (["--edge=1", "2"].map String.toList) = .error .error ∧
    commandLine .cycle (["-a", "-c"].map String.toList) = .error .error ∧ commandLine .cycle [] = .error .error ∧
    commandLine .init [['d']] = .error .error ∧ commandLine .csp ["-h".toList] = .error .help := ⟨rfl, rfl, rfl, rfl, rfl, rfl, rfl⟩

/-! ### C117 -/

/-- The path of an invocation. -/
def Invocation.path : Invocation → Text
  | .init p | .add p _ | .delete p _ _ | .build p _ | .clean p _ _ | .random p _ _ _ _ _ | .query p _ => p

theorem change_build (us : List Use) (l : Typed) (b : Bool) :
    (Invocation.build (oneOr us "path" ['.']) b).change l = (asks .build us).change l := rfl

/-- The model's reading of an invocation is `Wants`. -/
theorem change_iff (l : Typed) (i : Invocation) (x : Option (Text × Cmd)) :
    i.change l = x ↔ (x = none ∧ ∀ cmd, ¬ Wants l i cmd) ∨ ∃ path cmd, x = some (path, cmd) ∧ Wants l i cmd ∧ i.path = path := by
  have hno : ∀ {y : Text × Cmd}, (∃ cmd, Wants l i cmd) → i.change l = some y → (Wants l i y.2 ∧ i.path = y.1) →
      (i.change l = x ↔ (x = none ∧ ∀ cmd, ¬ Wants l i cmd) ∨ ∃ path cmd, x = some (path, cmd) ∧ Wants l i cmd ∧ i.path = path) := by
    intro y hw hy h2
    rw [hy]
    constructor
    · rintro rfl
      exact .inr ⟨y.1, y.2, rfl, h2⟩
    · rintro (⟨_, h⟩ | ⟨path, cmd, rfl, h3, h4⟩)
      · exact absurd hw fun ⟨c, hc⟩ => h c hc
      · rw [h2.2] at h4
        have : y.2 = cmd := by
          obtain ⟨y1, y2⟩ := y
          have h5 : Wants l i y2 := h2.1
          show y2 = cmd
          cases h3 <;> cases h5 <;> rfl
        rw [← h4, ← this]
  cases i with
  | init path => exact hno ⟨_, .init⟩ rfl ⟨.init, rfl⟩
  | add path a => exact hno ⟨_, .add⟩ rfl ⟨.add, rfl⟩
  | delete path v e => exact hno ⟨_, .delete⟩ rfl ⟨.delete, rfl⟩
  | build path v => exact hno ⟨_, .build⟩ rfl ⟨.build, rfl⟩
  | clean path f s => exact hno ⟨_, .clean⟩ rfl ⟨.clean, rfl⟩
  | query path q =>
    have h : ∀ cmd, ¬ Wants l (.query path q) cmd := by
      intro cmd h
      cases h
    constructor
    · rintro rfl
      exact .inl ⟨rfl, h⟩
    · rintro (⟨rfl, _⟩ | ⟨_, _, _, hw, _⟩)
      · rfl
      · exact absurd hw (h _)
  | random path f c cy vc ec =>
    cases hs : Random.sizes vc ec with
    | done y =>
      have : ∃ n, ArgNat vc n ∧ n * 3 < 2 ^ 64 := by
        unfold Random.sizes at hs
        cases hp : parseUsize vc with
        | none => rw [hp] at hs; cases hs
        | some n =>
          rw [hp] at hs
          simp only [Run.unwrap, Run.bind] at hs
          split at hs
          · rename_i hlt
            exact ⟨n, parseUsize_iff.1 hp, hlt⟩
          · cases hs
      obtain ⟨n, h1, h2⟩ := this
      exact hno (y := (path, .random l.generated l.order f l.answer)) ⟨_, .random h1 h2⟩ (by simp only [Invocation.change, hs]) ⟨.random h1 h2, rfl⟩
    | _ =>
      have h : ∀ cmd, ¬ Wants l (.random path f c cy vc ec) cmd := by
        intro cmd h
        cases h with
        | random h1 h2 =>
          have := parseUsize_iff.2 h1
          unfold Random.sizes at hs
          rw [this] at hs
          simp only [Run.unwrap, Run.bind] at hs
          rw [if_pos h2] at hs
          cases hs
      have hn : (Invocation.random path f c cy vc ec).change l = none := by simp only [Invocation.change, hs]
      rw [hn]
      constructor
      · rintro rfl
        exact .inl ⟨rfl, h⟩
      · rintro (⟨rfl, _⟩ | ⟨_, _, _, hw, _⟩)
        · rfl
        · exact absurd hw (h _)

theorem change_none {l : Typed} {i : Invocation} (h : ∀ cmd, ¬ Wants l i cmd) : i.change l = none := (change_iff l i none).2 (.inl ⟨rfl, h⟩)

theorem asks_path (t : Tool) (us : List Use) : (asks t us).path = oneOr us "path" ['.'] := by cases t <;> rfl

theorem change_some {l : Typed} {t : Tool} {us : List Use} {cmd : Cmd} (h : Wants l (asks t us) cmd) :
    (asks t us).change l = some (oneOr us "path" ['.'], cmd) :=
  (change_iff l _ _).2 (.inr ⟨_, _, rfl, h, asks_path t us⟩)

/-- What a typed line does. -/
theorem runLine_requests {nd : Char → Bool} {dir : Text → FPath} {root : FPath} {l : Typed} {o : Option Cmd} (h : Requests dir root l o) (fs : FS) :
    runLine nd dir l fs = match o with
      | some cmd => (exec nd root cmd fs).1
      | none => fs := by
  have key : ∀ us, InOrder l.tool l.words us → ∃ i, commandLine l.tool l.words = .ok (some i) ∧ i.change l = (asks l.tool us).change l := by
    intro us hu
    by_cases ht : l.tool = .build
    · obtain ⟨h1, h2⟩ := hu
      rw [ht] at h1 h2 ⊢
      exact ⟨_, C116_asks_build _ _ h1 h2, change_build us l true⟩
    · exact ⟨_, C116_asks _ ht _ _ hu.1 hu.2, rfl⟩
  cases h with
  | refused h =>
    obtain ⟨e, he⟩ := C116_refused l.tool l.words fun us h1 h2 => h us ⟨h1, h2⟩
    simp only [runLine, he]
  | nothing h1 h2 =>
    obtain ⟨i, h3, h4⟩ := key _ h1
    simp only [runLine, h3, h4, change_none h2]
  | change h1 h2 h3 =>
    obtain ⟨i, h4, h5⟩ := key _ h1
    simp only [runLine, h4, h5, change_some h2, h3]

theorem shell_session {nd : Char → Bool} {dir : Text → FPath} {root : FPath} {ls : List Typed} {cmds : List Cmd} (h : AllRequests dir root ls cmds)
    (fs : FS) : shell nd dir ls fs = (session nd root cmds fs).1 := by
  induction h generalizing fs with
  | nil => rfl
  | skip h1 _ ih =>
    show shell nd dir _ (runLine nd dir _ fs) = _
    rw [runLine_requests h1, ih]
  | cons h1 _ ih =>
    show shell nd dir _ (runLine nd dir _ fs) = _
    rw [runLine_requests h1, ih]
    rfl

theorem AllRequests.proper {dir : Text → FPath} {root : FPath} {ls : List Typed} {cmds : List Cmd} (h : AllRequests dir root ls cmds)
    (hp : ∀ l ∈ ls, IsOrder l.order ∧ Built l.generated) : ∀ cmd ∈ cmds, cmd.Proper := by
  induction h with
  | nil => simp
  | skip _ _ ih => exact ih fun l hl => hp l (by simp [hl])
  | @cons l ls cmd cmds h1 _ ih =>
    intro c hc
    rcases List.mem_cons.1 hc with rfl | hc
    · obtain ⟨h2, h3⟩ := hp l (by simp)
      cases h1 with
      | @change us _ _ h5 _ =>
        generalize asks l.tool us = i at h5
        cases h5 with
        | init => trivial
        | add => trivial
        | delete => trivial
        | build => exact h2
        | clean => trivial
        | random => exact ⟨h3, h2⟩
    · exact ih (fun l hl => hp l (by simp [hl])) c hc

/-- C117: any sequence of typed lines about one directory, where no graph was before, leaves exactly the graph of the set-theoretic history
of what the lines say. Refused lines and queries change nothing. -/
theorem C117_typed_session (nd : Char → Bool) (dir : Text → FPath) (root : FPath) (ls : List Typed) (cmds : List Cmd)
    (h : AllRequests dir root ls cmds) (hp : ∀ l ∈ ls, IsOrder l.order ∧ Built l.generated) (fs : FS) (hf : Fresh root fs) :
    ∃ S es, Store.History cmds none S es ∧ Stored nd root (shell nd dir ls fs) S ∧ Untouched root fs (shell nd dir ls fs) := by
  rw [shell_session h]
  obtain ⟨S, h1, h2, h3⟩ := C75_session_from_fresh nd root cmds (h.proper hp) fs hf
  exact ⟨S, _, h1, h2, h3⟩

/-- C117: the same for a directory that holds a graph. -/
theorem C117_typed_session_on (nd : Char → Bool) (dir : Text → FPath) (root : FPath) (ls : List Typed) (cmds : List Cmd)
    (h : AllRequests dir root ls cmds) (hp : ∀ l ∈ ls, IsOrder l.order ∧ Built l.generated) (fs : FS) (S : Option SetGraph)
    (hf : Holds nd root fs S) :
    ∃ S' es, Store.History cmds S S' es ∧ Holds nd root (shell nd dir ls fs) S' ∧ Untouched root fs (shell nd dir ls fs) := by
  rw [shell_session h]
  obtain ⟨S', h1, _, h2, h3⟩ := C75_session nd root cmds (h.proper hp) fs S hf
  exact ⟨S', _, h1, h2, h3⟩

/-- C117: every typed line asks for something or for nothing, unless it is about another directory. -/
theorem C117_total (dir : Text → FPath) (root : FPath) (l : Typed) :
    (∃ o, Requests dir root l o) ∨
      ∃ us cmd, InOrder l.tool l.words us ∧ Wants l (asks l.tool us) cmd ∧ dir (oneOr us "path" ['.']) ≠ root := by
  by_cases h : ∃ us, InOrder l.tool l.words us
  · obtain ⟨us, h⟩ := h
    by_cases hc : ∃ cmd, Wants l (asks l.tool us) cmd
    · obtain ⟨cmd, hc⟩ := hc
      by_cases hd : dir (oneOr us "path" ['.']) = root
      · exact .inl ⟨_, .change h hc hd⟩
      · exact .inr ⟨us, cmd, h, hc, hd⟩
    · exact .inl ⟨none, .nothing h fun cmd hw => hc ⟨cmd, hw⟩⟩
  · exact .inl ⟨none, .refused fun us hu => h ⟨us, hu⟩⟩

/-- C117: what a line asks for is unique. -/
theorem C117_unique (dir : Text → FPath) (root : FPath) (l : Typed) (o o' : Option Cmd) (h : Requests dir root l o) (h' : Requests dir root l o') :
    o = o' := by
  have key : ∀ us us', InOrder l.tool l.words us → InOrder l.tool l.words us' → (asks l.tool us).change l = (asks l.tool us').change l := by
    intro us us' h1 h2
    by_cases ht : l.tool = .build
    · obtain ⟨h3, h4⟩ := h1
      obtain ⟨h5, h6⟩ := h2
      rw [ht] at h3 h4 h5 h6 ⊢
      have h7 := C116_asks_build _ _ h3 h4
      rw [C116_asks_build _ _ h5 h6] at h7
      rw [← change_build us l true, ← change_build us' l true]
      injection h7 with h7
      injection h7 with h7
      rw [h7]
    · have h7 := C116_asks _ ht _ _ h1.1 h1.2
      rw [C116_asks _ ht _ _ h2.1 h2.2] at h7
      injection h7 with h7
      injection h7 with h7
      rw [h7]
  cases h with
  | refused h =>
    cases h' with
    | refused _ => rfl
    | nothing h1 _ => rfl
    | change h1 _ _ => exact absurd h1 (h _)
  | nothing h1 h2 =>
    cases h' with
    | refused _ => rfl
    | nothing _ _ => rfl
    | change h3 h4 _ => have := change_none h2; rw [key _ _ h1 h3, change_some h4] at this; cases this
  | change h1 h2 h3 =>
    cases h' with
    | refused h => exact absurd h1 (h _)
    | nothing h4 h5 => have := change_none h5; rw [key _ _ h4 h1, change_some h2] at this; cases this
    | change h4 h5 _ => have := change_some h5; rw [key _ _ h4 h1, change_some h2] at this; injection this with this; injection this with _ this; rw [this]

/-- A typed session: gc-init, gc-add, a line that is refused, a query, gc-delete. -/
def exampleLines : List Typed := ([
  (.init, []), (.add, ["-v", "1", "--edge", "2", "3"]), (.add, ["--edge", "5"]), (.desc, []), (.delete, ["-v1"])
  ] : List (Tool × List String)).map fun x => ⟨x.1, x.2.map String.toList, id, .new, []⟩

/-- The hypotheses of `C117_typed_session` and `C117_typed_session_on` are met, and the graph is what one expects. -/
example : ∃ cmds, AllRequests (fun _ => [['d']]) [['d']] exampleLines cmds ∧ Fresh [['d']] emptyFS ∧
    (∀ l ∈ exampleLines, IsOrder l.order ∧ Built l.generated) ∧
    (shell (fun _ => false) (fun _ => [['d']]) exampleLines emptyFS) (commandPath [['d']]) =
      some (.file "AddVertex 1\nAddEdge 2 3\nRemoveVertex 1\n".toList) := by
  have key : ∀ (ls : List Typed), ∃ cmds, AllRequests (fun _ => [['d']]) [['d']] ls cmds := by
    intro ls
    induction ls with
    | nil => exact ⟨[], .nil⟩
    | cons l ls ih =>
      obtain ⟨cmds, ih⟩ := ih
      rcases C117_total (fun _ => [['d']]) [['d']] l with ⟨o, h⟩ | ⟨_, _, _, _, h⟩
      · cases o with
        | none => exact ⟨cmds, .skip h ih⟩
        | some c => exact ⟨c :: cmds, .cons h ih⟩
      · exact absurd rfl h
  obtain ⟨cmds, h⟩ := key exampleLines
  refine ⟨cmds, h, emptyFS_fresh, ?_, by decide +kernel⟩
  intro l hl
  obtain ⟨x, _, rfl⟩ := List.mem_map.1 hl
  exact ⟨fun g => .refl _, .new⟩

/-! ### C118 -/

/-- C118 is false for `gc-build --verbose`: every accepted line of gc-build is verbose, whether it says so or not. -/
theorem C118_counterexample_verbose (ws : List Text) (r : Option Invocation) (h : commandLine .build ws = .ok r) : ∃ path, r = some (.build path true) := by
  unfold commandLine at h
  cases hp : parse (Tool.app .build) ws with
  | error e => rw [hp] at h; cases h
  | ok m =>
    obtain ⟨us, h1, h2, _⟩ := (C116_exact .build ws m).1 hp
    have := C116_asks_build ws us h1 h2
    unfold commandLine at this
    rw [this] at h
    cases h
    exact ⟨_, rfl⟩

example : commandLine .build [] = .ok (some (.build ['.'] true)) ∧
    commandLine .build (["--verbose", "false"].map String.toList) = .ok (some (.build ['.'] true)) := ⟨rfl, rfl⟩

/-- Options that take one value get at most one, on the whole line. -/
theorem Line.closed {app : App} {ws : List Text} {us : List Use} (h : Line app ws us) : ∀ u ∈ us, ¬Open u.arg → u.vals.length ≤ 1 := by
  have hf : ∀ {cs fs}, Letters app cs fs → ∀ u ∈ fs, ¬Open u.arg → u.vals.length ≤ 1 := by
    intro cs fs h
    induction h with
    | nil => simp
    | cons _ _ _ ih => intro u hu; rcases List.mem_cons.1 hu with rfl | hu; exacts [fun _ => by simp, ih u hu]
  induction h with
  | nil | stop => simp
  | flag _ _ _ _ ih | flagText _ _ _ _ _ ih | longEq _ _ _ _ _ _ _ ih =>
    intro u hu; rcases List.mem_cons.1 hu with rfl | hu; exacts [fun _ => by simp, ih u hu]
  | long _ _ _ _ ho _ ih =>
    intro u hu; rcases List.mem_cons.1 hu with rfl | hu; exacts [fun h => ho.resolve_left h, ih u hu]
  | letters _ hl _ ih => intro u hu; rcases List.mem_append.1 hu with hu | hu; exacts [hf hl u hu, ih u hu]
  | short hl _ _ _ ho _ ih =>
    intro u hu
    rcases List.mem_append.1 hu with hu | hu
    · exact hf hl u hu
    · rcases List.mem_cons.1 hu with rfl | hu; exacts [fun h => ho.resolve_left h, ih u hu]
  | glued hl _ _ _ _ _ hm _ ih =>
    intro u hu
    rcases List.mem_append.1 hu with hu | hu
    · exact hf hl u hu
    · rcases List.mem_cons.1 hu with rfl | hu
      · intro h
        rw [hm.resolve_left fun e => h (.inl e)]
        simp
      · exact ih u hu
  | gluedEq _ hl _ _ _ _ _ ih =>
    intro u hu
    rcases List.mem_append.1 hu with hu | hu
    · exact hf hl u hu
    · rcases List.mem_cons.1 hu with rfl | hu; exacts [fun _ => by simp, ih u hu]

theorem given_closed {app : App} (hp : Proper app) {ws : List Text} {us : List Use} (h : Line app ws us) (ha : Admissible app us) {a : Arg}
    (hm : a ∈ app.args) (ho : ¬Open a) : (given us a.name).length ≤ 1 := by
  have h1 := ha.once a hm (by
    cases h : a.multiple with
    | false => rfl
    | true => exact absurd (.inl h) ho)
  unfold times at h1
  unfold given
  have h2 : ∀ u ∈ us.filter fun u => u.arg.name = a.name, u.vals.length ≤ 1 := by
    intro u hu
    obtain ⟨hu, hn⟩ := List.mem_filter.1 hu
    have : u.arg = a := hp.name_inj (h.mem u hu) hm (by simpa using hn)
    exact h.closed u hu (this ▸ ho)
  generalize (us.filter fun u => u.arg.name = a.name) = l at h1 h2
  match l, h1, h2 with
  | [], _, _ => simp
  | [u], _, h2 => simpa using h2 u (by simp)

/-- The application has an option of this name that takes one value. -/
def declaresOne (app : App) (n : String) : Bool :=
  app.args.any fun a => a.name == n.toList && !a.multiple && a.minValues == none && a.maxValues == none

theorem listOf_one {app : App} (hp : Proper app) {ws : List Text} {us : List Use} (h : Line app ws us) (ha : Admissible app us) {n : String}
    (hd : declaresOne app n = true) : ∀ l, listOf us n = some l → l.length ≤ 1 := by
  intro l hl
  obtain ⟨a, hm, h1⟩ := List.any_eq_true.1 hd
  simp only [Bool.and_eq_true, beq_iff_eq, Bool.not_eq_true'] at h1
  obtain ⟨⟨⟨h1, h2⟩, h3⟩, h4⟩ := h1
  have := given_closed hp h ha hm (by unfold Open; simp [h2, h3, h4])
  unfold listOf at hl
  split at hl
  · cases hl
  · cases hl
    rw [← h1]
    exact this

/-- An accepted line of gc-cycle. -/
theorem cycle_line {ws : List Text} {path : Text} {act : GcCycle.Actions} {a : Args.CycleArgs}
    (h : commandLine .cycle ws = .ok (some (.query path (.cycle act a)))) :
    ∃ us, Line (Tool.app .cycle) ws us ∧ Admissible (Tool.app .cycle) us ∧ asks .cycle us = .query path (.cycle act a) := by
  unfold commandLine at h
  cases hp : parse (Tool.app .cycle) ws with
  | error e => rw [hp] at h; cases h
  | ok m =>
    obtain ⟨us, h1, h2, _⟩ := (C116_exact .cycle ws m).1 hp
    have := C116_asks .cycle (by simp) ws us h1 h2
    unfold commandLine at this
    rw [this] at h
    injection h with h
    injection h with h
    exact ⟨us, h1, h2, h⟩

/-- C118 is false for `gc-cycle --include-all` and `--exclude-all` ("all the provided vertices"): no line with more than one vertex is
accepted. -/
theorem C118_counterexample_vertices (ws : List Text) (path : Text) (act : GcCycle.Actions) (a : Args.CycleArgs)
    (h : commandLine .cycle ws = .ok (some (.query path (.cycle act a)))) :
    (∀ l, a.includeAll = some l → l.length ≤ 1) ∧ ∀ l, a.excludeAll = some l → l.length ≤ 1 := by
  obtain ⟨us, h1, h2, h3⟩ := cycle_line h
  cases h3
  exact ⟨listOf_one (proper .cycle) h1 h2 (by decide +kernel), listOf_one (proper .cycle) h1 h2 (by decide +kernel)⟩

example : commandLine .cycle (["--all", "--include-all", "1", "2"].map String.toList) = .error .error ∧
    commandLine .cycle (["--all", "--include-all", "1", "--include-all", "2"].map String.toList) = .error .error ∧
    commandLine .cycle (["--all", "--include-all", "1"].map String.toList) =
      .ok (some (.query ['.'] (.cycle { all := true } { includeAll := some [['1']] }))) := ⟨rfl, rfl, rfl⟩

/-- The application has an option of this name without default value. -/
def declaresOption (app : App) (n : String) : Bool := app.args.any fun a => a.name == n.toList && a.takesValue && a.default.isNone

theorem listOf_nonempty {app : App} {us : List Use} (ha : Admissible app us) {n : String} (hd : declaresOption app n = true) :
    ∀ l, listOf us n = some l → l ≠ [] := by
  intro l hl
  obtain ⟨a, hm, h1⟩ := List.any_eq_true.1 hd
  simp only [Bool.and_eq_true, beq_iff_eq, Option.isNone_iff_eq_none] at h1
  obtain ⟨⟨h1, h2⟩, h3⟩ := h1
  unfold listOf at hl
  split at hl
  · cases hl
  · rename_i ht
    cases hl
    have := ha.some a hm h2 (h1 ▸ ht)
    rw [valuesOf_none h3] at this
    rw [← h1]
    exact this

theorem parseEdgeList_one {l : List Text} (h : l.length ≤ 1) (h0 : l ≠ []) : Args.parseEdgeList l = none := by
  match l, h, h0 with
  | [t], _, _ =>
    cases hp : Args.parseVertexIdList [t] with
    | none => simp [Args.parseEdgeList, hp]
    | some vs =>
      have h1 : vs.length = 1 := by
        have := parseVertexIdList_iff.1 hp
        cases this with
        | cons _ h => cases h; rfl
      simp [Args.parseEdgeList, hp, Args.asVertexTuple, h1]

/-- C118 is false for `gc-cycle --include-all-edges` and `--exclude-all-edges`: an edge is two vertices, but the options take one value;
whatever is given, an accepted line prints the same as without these options, on every graph. -/
theorem C118_counterexample_edges (ws : List Text) (path : Text) (act : GcCycle.Actions) (a : Args.CycleArgs)
    (h : commandLine .cycle ws = .ok (some (.query path (.cycle act a)))) (graph : DirectedGraph) :
    GcCycle.main graph act a = GcCycle.main graph act { a with includeAllEdges := none, excludeAllEdges := none } := by
  obtain ⟨us, h1, h2, h3⟩ := cycle_line h
  have key : ∀ n : String, declaresOne cycleApp n = true → declaresOption cycleApp n = true → (listOf us n).bind Args.parseEdgeList = none := by
    intro n hn hn'
    cases hl : listOf us n with
    | none => rfl
    | some l => exact parseEdgeList_one (listOf_one (proper .cycle) h1 h2 hn l hl) (listOf_nonempty h2 hn' l hl)
  have hi := key "include-all-edges" (by decide +kernel) (by decide +kernel)
  have he := key "exclude-all-edges" (by decide +kernel) (by decide +kernel)
  cases h3
  have : ∀ b : Args.CycleArgs, b.includeAllEdges.bind Args.parseEdgeList = none → b.excludeAllEdges.bind Args.parseEdgeList = none →
      Args.cycleConstraints b = Args.cycleConstraints { b with includeAllEdges := none, excludeAllEdges := none } := by
    intro b h1 h2
    unfold Args.cycleConstraints
    rw [h1, h2]
    rfl
  unfold GcCycle.main
  rw [this _ hi he]

example : commandLine .cycle (["--all", "--include-all-edges", "1"].map String.toList) =
    .ok (some (.query ['.'] (.cycle { all := true } { includeAllEdges := some [['1']] }))) ∧
    commandLine .cycle (["--all", "--include-all-edges", "1", "2"].map String.toList) = .error .error := ⟨rfl, rfl⟩

/-- C118 is false for negative numbers (scores) as words of their own: a line of any binary with a word like `-3` is refused. -/
theorem C118_counterexample_negative (t : Tool) (ws : List Text) (d : Char) (rest : Text) (hd : isAsciiDigit d = true)
    (h : '-' :: d :: rest ∈ ws) : ∃ e, commandLine t ws = .error e := by
  have hlet : ∀ a ∈ t.app.args, a.short ≠ some d := by
    intro a ha e
    have : t.app.args.all (fun a => match a.short with | some c => !isAsciiDigit c | none => true) = true := by
      cases t <;> decide +kernel
    have := List.all_eq_true.1 this a ha
    rw [e] at this
    simp [hd] at this
  have hstep : ∀ s : State, ∃ e, step t.app ('-' :: d :: rest) s = .error e := by
    intro s
    have hne : d ≠ '-' := by rintro rfl; cases hd
    by_cases htr : s.trailing = true
    · exact ⟨.error, by simp [step, htr]⟩
    · rw [step_letters (by simpa using htr) hne, parseShort]
      have h1 : t.app.optShort d = none := find_none fun b hb => by simp [hlet b hb]
      have h2 : t.app.flagShort d = none := find_none fun b hb => by simp [hlet b hb]
      rw [h1, h2]
      simp only
      split
      · exact ⟨_, rfl⟩
      · split <;> exact ⟨_, rfl⟩
  have hsteps : ∀ (ws : List Text) (s : State), '-' :: d :: rest ∈ ws → ∃ e, steps t.app ws s = .error e := by
    intro ws
    induction ws with
    | nil => intro s h; cases h
    | cons w ws ih =>
      intro s h
      rw [steps]
      cases hs : step t.app w s with
      | error e => exact ⟨e, rfl⟩
      | ok s' =>
        rcases List.mem_cons.1 h with e | h
        · obtain ⟨e', he⟩ := hstep s
          rw [e, hs] at he
          cases he
        · exact ih s' h
  obtain ⟨e, he⟩ := hsteps ws ⟨.nothing, fun _ => none, false⟩ h
  exact ⟨e, by unfold commandLine parse; rw [he]⟩

example : commandLine .csp (["-s", "1", "-e", "2", "--min-score", "-3"].map String.toList) = .error .error := rfl

/-- C118, the part that holds: an option that takes one value can be added to any accepted line of any binary, with an equality sign and
any text that does not begin with one, also a negative number; the text is its value (and C116 tells what the line asks for). -/
theorem C118_equals_partial (t : Tool) (ws : List Text) (us : List Use) (h : InOrder t ws us) (o : Arg) (ho : o ∈ t.app.args)
    (hv : o.takesValue = true) (hone : ∀ k, o.minValues = some k → k ≤ 1) (hmax : ∀ k, o.maxValues = some k → 1 ≤ k)
    (hg : o.name ∉ t.app.group) (hnew : times us o.name = 0) (v : Text) (hne : v.head? ≠ some '=') :
    InOrder t (("--".toList ++ o.name ++ ['='] ++ v) :: ws) (⟨o, [v]⟩ :: us) ∧ given (⟨o, [v]⟩ :: us) o.name = [v] := by
  have htimes : ∀ n, times (⟨o, [v]⟩ :: us) n = (if o.name = n then 1 else 0) + times us n := by
    intro n
    rw [show (⟨o, [v]⟩ :: us : List Use) = [⟨o, [v]⟩] ++ us from rfl, times_append, times_single]
  have hgiven : ∀ n, given (⟨o, [v]⟩ :: us) n = (if o.name = n then [v] else []) ++ given us n := by
    intro n
    rw [show (⟨o, [v]⟩ :: us : List Use) = [⟨o, [v]⟩] ++ us from rfl, given_append, given_single]
  have hsame : ∀ a ∈ t.app.args, a = o ∨ (o.name ≠ a.name ∧ times (⟨o, [v]⟩ :: us) a.name = times us a.name ∧
      valuesOf (⟨o, [v]⟩ :: us) a = valuesOf us a) := by
    intro a ha
    by_cases e : o.name = a.name
    · exact .inl ((proper t).name_inj ha ho e.symm)
    · exact .inr ⟨e, by rw [htimes]; simp [e], by unfold valuesOf; rw [hgiven]; simp [e]⟩
  have hgo : given (⟨o, [v]⟩ :: us) o.name = [v] := by rw [hgiven, given_nil_of_times hnew]; simp
  have hto : times (⟨o, [v]⟩ :: us) o.name = 1 := by rw [htimes]; simp [hnew]
  have hvo : valuesOf (⟨o, [v]⟩ :: us) o = [v] := by unfold valuesOf; rw [hgo]; simp
  obtain ⟨hl, ha⟩ := h
  refine ⟨⟨.longEq 2 1 ⟨ho, hv⟩ (by omega) (by omega) hne hl, ?_, ?_, ?_, ?_, ?_, ?_⟩, hgo⟩
  · intro a hm hr
    rcases hsame a hm with rfl | ⟨_, h1, _⟩
    · left; omega
    · rw [h1]; exact ha.required a hm hr
  · intro a hm hr
    rcases hsame a hm with rfl | ⟨_, h1, _⟩
    · omega
    · rw [h1]; exact ha.once a hm hr
  · intro a hm hr
    rcases hsame a hm with rfl | ⟨_, h1, h2⟩
    · intro _; rw [hvo]; simp
    · rw [h1, h2]; exact ha.some a hm hr
  · intro a hm hr k hk
    rcases hsame a hm with rfl | ⟨_, h1, h2⟩
    · intro _; rw [hvo]; exact hone k hk
    · rw [h2]; exact ha.enough a hm hr k hk
  · intro a hm hr k hk
    rcases hsame a hm with rfl | ⟨_, h1, h2⟩
    · rw [hvo]; exact hmax k hk
    · rw [h2]; exact ha.few a hm hr k hk
  · intro hne'
    obtain ⟨n, h1, h2, h3⟩ := ha.group hne'
    have hn : ∀ n ∈ t.app.group, times (⟨o, [v]⟩ :: us) n = times us n := by
      intro n hn
      rw [htimes, if_neg (fun e : o.name = n => hg (e ▸ hn))]
      omega
    exact ⟨n, h1, by rw [hn n h1]; exact h2, fun n' h4 h5 => h3 n' h4 (by rw [hn n' h4] at h5; exact h5)⟩

/-- `C118_equals_partial` for gc-random: `--edge-count=-3` is an accepted line, with the value `-3`. -/
example : ∃ o ∈ (Tool.app .random).args, o.name = "edge-count".toList ∧ InOrder .random ["--edge-count=-3".toList] [⟨o, ["-3".toList]⟩] := by
  obtain ⟨o, ho⟩ : ∃ o, (Tool.app .random).args.find? (·.name = "edge-count".toList) = some o := ⟨_, rfl⟩
  have hm := List.mem_of_find?_eq_some ho
  cases ho
  exact ⟨_, hm, rfl, (C118_equals_partial .random [] [] ⟨.nil, ⟨by decide, by decide, by decide, by decide, by decide, by decide⟩⟩ _ hm rfl
    (by decide) (by decide) (by decide) rfl "-3".toList (by decide)).1⟩

example : commandLine .csp (["-s", "1", "-e", "2", "--min-score=-3"].map String.toList) =
    .ok (some (.query ['.'] (.csp ['1'] ['2'] { minScore := some "-3".toList }))) := rfl

end Cli
end GC
