/-
Specification of command lines: what a list of words says, and when it is in order. Independent of the parser.
-/
import Verif.Model.Cli
import Verif.Spec.Args
namespace GC
namespace Cli
open Text Clap

/-- One use of a declared argument on a command line, with the values it is given there. -/
structure Use where
  arg : Arg
  vals : List Text

/-- A word that can only be a value: it does not start with a hyphen, or it is a single hyphen. -/
def Plain (w : Text) : Prop := w.head? ≠ some '-' ∨ w = ['-']

/-- A flag: it is given without a value. -/
def App.IsFlag (app : App) (f : Arg) : Prop := f ∈ app.args ∧ f.takesValue = false
/-- An option: it is given with values. -/
def App.IsOption (app : App) (o : Arg) : Prop := o ∈ app.args ∧ o.takesValue = true

/-- An option that can be followed by more than one value. -/
def Open (o : Arg) : Prop := o.multiple = true ∨ o.minValues ≠ none ∨ o.maxValues ≠ none

/-- Some flags given together, as in `-rf`: their letters. -/
inductive Letters (app : App) : Text → List Use → Prop
  | nil : Letters app [] []
  | cons {f c cs us} : App.IsFlag app f → f.short = some c → Letters app cs us → Letters app (c :: cs) (⟨f, []⟩ :: us)

/-- `Line app words uses`: the words of a command line, and the uses of arguments that they are, in order. -/
inductive Line (app : App) : List Text → List Use → Prop
  /-- The end. -/
  | nil : Line app [] []
  /-- A `--` at the end says nothing. -/
  | stop : Line app [['-', '-']] []
  /-- `--flag` (more hyphens do as well). -/
  | flag {f ws us} (k : Nat) : App.IsFlag app f → 2 ≤ k → Line app ws us →
      Line app ((List.replicate k '-' ++ f.name) :: ws) (⟨f, []⟩ :: us)
  /-- `--flag=text`: the text says nothing. -/
  | flagText {f ws us} (k : Nat) (text : Text) : App.IsFlag app f → 2 ≤ k → Line app ws us →
      Line app ((List.replicate k '-' ++ f.name ++ '=' :: text) :: ws) (⟨f, []⟩ :: us)
  /-- `--option value value ...`. -/
  | long {o vals ws us} (k : Nat) : App.IsOption app o → 2 ≤ k → (∀ v ∈ vals, Plain v) → (Open o ∨ vals.length ≤ 1) → Line app ws us →
      Line app ((List.replicate k '-' ++ o.name) :: (vals ++ ws)) (⟨o, vals⟩ :: us)
  /-- `--option=value` (more equality signs do as well): exactly one value, any text. -/
  | longEq {o v ws us} (k j : Nat) : App.IsOption app o → 2 ≤ k → 1 ≤ j → v.head? ≠ some '=' → Line app ws us →
      Line app ((List.replicate k '-' ++ o.name ++ List.replicate j '=' ++ v) :: ws) (⟨o, [v]⟩ :: us)
  /-- `-abc`: flags by their letters. -/
  | letters {cs fs ws us} : cs ≠ [] → Letters app cs fs → Line app ws us → Line app (('-' :: cs) :: ws) (fs ++ us)
  /-- `-o value value ...`, where flags can precede the `o`. -/
  | short {o c cs fs vals ws us} : Letters app cs fs → App.IsOption app o → o.short = some c → (∀ v ∈ vals, Plain v) →
      (Open o ∨ vals.length ≤ 1) → Line app ws us →
      Line app (('-' :: cs ++ [c]) :: (vals ++ ws)) (fs ++ ⟨o, vals⟩ :: us)
  /-- `-ovalue`; only if the option can be repeated, more values can follow. -/
  | glued {o c cs fs v vals ws us} : Letters app cs fs → App.IsOption app o → o.short = some c → v ≠ [] → v.head? ≠ some '=' →
      (∀ v ∈ vals, Plain v) → (o.multiple = true ∨ vals = []) → Line app ws us →
      Line app (('-' :: cs ++ c :: v) :: (vals ++ ws)) (fs ++ ⟨o, v :: vals⟩ :: us)
  /-- `-o=value` (more equality signs do as well). -/
  | gluedEq {o c cs fs v ws us} (j : Nat) : Letters app cs fs → App.IsOption app o → o.short = some c → 1 ≤ j → v.head? ≠ some '=' →
      Line app ws us →
      Line app (('-' :: cs ++ c :: (List.replicate j '=' ++ v)) :: ws) (fs ++ ⟨o, [v]⟩ :: us)

/-- A word that asks clap itself for something: `--help` or `--version` (more hyphens do as well, and `=text` says nothing), or `-h` or `-V`,
perhaps after letters of flags and followed by anything, unless the application uses the letter itself. -/
def Tells (app : App) (name : String) (letter : Char) (w : Text) : Prop :=
  (∃ k rest, 2 ≤ k ∧ (rest = [] ∨ rest.head? = some '=') ∧ w = List.replicate k '-' ++ (name.toList ++ rest)) ∨
  ∃ cs fs rest, Letters app cs fs ∧ (∀ a ∈ app.args, a.short ≠ some letter) ∧ w = '-' :: (cs ++ letter :: rest)

/-- The word asks for the help text, or for the version. -/
def AsksClap (app : App) : Stop → Text → Prop
  | .help => Tells app "help" 'h'
  | .version => Tells app "version" 'V'
  | .error => fun _ => False

/-- How often an argument is used. -/
def times (us : List Use) (n : Text) : Nat := (us.filter fun u => u.arg.name = n).length
/-- The values given to an argument, in all its uses. -/
def given (us : List Use) (n : Text) : List Text := (us.filter fun u => u.arg.name = n).flatMap (·.vals)
/-- The values of an argument: the given ones, or its default value. -/
def valuesOf (us : List Use) (a : Arg) : List Text := if given us a.name = [] then a.default.toList else given us a.name

/-- The uses are in order: required arguments are there, nothing is repeated that must not be, numbers of values are within their limits, and
exactly one argument of the group (if there is a group) is used. -/
structure Admissible (app : App) (us : List Use) : Prop where
  /-- A required argument is used, or has a default value. -/
  required : ∀ a ∈ app.args, a.required = true → times us a.name ≠ 0 ∨ a.default ≠ none
  /-- Only a `multiple` argument can be repeated. -/
  once : ∀ a ∈ app.args, a.multiple = false → times us a.name ≤ 1
  /-- An option that is used has a value. -/
  some : ∀ a ∈ app.args, a.takesValue = true → times us a.name ≠ 0 → valuesOf us a ≠ []
  /-- Enough values (if there are any). -/
  enough : ∀ a ∈ app.args, a.takesValue = true → ∀ k, a.minValues = Option.some k → valuesOf us a ≠ [] → k ≤ (valuesOf us a).length
  /-- Not too many values. -/
  few : ∀ a ∈ app.args, a.takesValue = true → ∀ k, a.maxValues = Option.some k → (valuesOf us a).length ≤ k
  /-- Exactly one of the group. -/
  group : app.group ≠ [] → ∃ n ∈ app.group, times us n ≠ 0 ∧ ∀ n' ∈ app.group, times us n' ≠ 0 → n' = n

/-- What the uses say about an argument: how often it is used and its values; `none` if it is not used and has no default value. -/
def meaning (app : App) (us : List Use) : Matches := fun n =>
  match app.args.find? fun a => a.name = n with
  | some a => if times us n = 0 ∧ valuesOf us a = [] then none else some ⟨times us n, valuesOf us a⟩
  | none => none

/-- Declarations that make sense: names and letters are distinct and can be typed, flags have no default value, the arguments of the group are
declared, without default, and limits are not contradictory. -/
structure Proper (app : App) : Prop where
  names : (app.args.map (·.name)).Nodup
  letters : ∀ a ∈ app.args, ∀ b ∈ app.args, a.short ≠ none → a.short = b.short → a.name = b.name
  nonempty : ∀ a ∈ app.args, a.name ≠ []
  hyphen : ∀ a ∈ app.args, a.name.head? ≠ some '-'
  equals : ∀ a ∈ app.args, '=' ∉ a.name
  reserved : ∀ a ∈ app.args, a.name ≠ "help".toList ∧ a.name ≠ "version".toList
  letter : ∀ a ∈ app.args, a.short ≠ some '-'
  flags : ∀ a ∈ app.args, a.takesValue = false → a.default = none
  group : ∀ n ∈ app.group, ∃ a ∈ app.args, a.name = n ∧ a.default = none
  groupNames : app.group.Nodup
  least : ∀ a ∈ app.args, a.minValues ≠ some 0
  most : ∀ a ∈ app.args, a.multiple = true → a.maxValues = none

/-! ### What the uses ask for -/

/-- The argument is used. -/
def used (us : List Use) (n : String) : Bool := decide (times us n.toList ≠ 0)
/-- The values given to an argument, if it is used. -/
def listOf (us : List Use) (n : String) : Option (List Text) := if times us n.toList = 0 then none else some (given us n.toList)
/-- The (first) value given to an argument. -/
def oneOf (us : List Use) (n : String) : Option Text := (given us n.toList).head?
/-- The (first) value given to an argument, or else `d`. -/
def oneOr (us : List Use) (n : String) (d : Text) : Text := (oneOf us n).getD d

/-- What a command line asks for, as documented. -/
def asks (t : Tool) (us : List Use) : Invocation :=
  let path := oneOr us "path" ['.']
  match t with
  | .init => .init path
  | .add => .add path {
      vertex := listOf us "vertex", reverse := used us "reverse", edge := listOf us "edge", chain := listOf us "chain",
      cycle := listOf us "cycle", star := listOf us "star", clique := listOf us "clique" }
  | .delete => .delete path (listOf us "vertex") (listOf us "edge")
  | .build => .build path (used us "verbose")
  | .clean => .clean path (used us "force") (used us "silent")
  | .random => .random path (used us "force") (used us "connected") (listOf us "cycle") (oneOr us "vertex-count" ['1', '0', '0'])
      (oneOf us "edge-count")
  | .desc => .query path (.desc path)
  | .topoSort => .query path .topoSort
  | .shortPath => .query path (.shortPath (oneOr us "start" []) (oneOr us "end" []))
  | .csp => .query path (.csp (oneOr us "start" []) (oneOr us "end" []) {
      include_ := listOf us "include", exclude := listOf us "exclude", ordered := listOf us "ordered",
      includeCycle := used us "include-cycle", noCycle := used us "no-cycle",
      minLength := oneOf us "min-length", maxLength := oneOf us "max-length", exactLength := oneOf us "exact-length",
      minScore := oneOf us "min-score", maxScore := oneOf us "max-score", exactScore := oneOf us "exact-score" })
  | .cycle => .query path (.cycle {
      girth := used us "girth", hamiltonian := used us "hamiltonian", count := used us "count", head := used us "head",
      takeN := oneOf us "take-n", all := used us "all", shortest := used us "shortest", longest := used us "longest" } {
      includeAll := listOf us "include-all", excludeAll := listOf us "exclude-all",
      includeAllEdges := listOf us "include-all-edges", excludeAllEdges := listOf us "exclude-all-edges",
      minLength := oneOf us "min-length", maxLength := oneOf us "max-length", exactLength := oneOf us "exact-length",
      minScore := oneOf us "min-score", maxScore := oneOf us "max-score", exactScore := oneOf us "exact-score" })

/-- The words are uses of arguments, and these are in order. -/
def InOrder (t : Tool) (ws : List Text) (us : List Use) : Prop := Line t.app ws us ∧ Admissible t.app us

/-- The change of a graph that an invocation is: queries are none, and neither is gc-random with an invalid number. -/
inductive Wants (l : Typed) : Invocation → Store.Cmd → Prop where
  | init {path} : Wants l (.init path) .init
  | add {path a} : Wants l (.add path a) (.add a)
  | delete {path vertex edge} : Wants l (.delete path vertex edge) (.delete vertex edge)
  | build {path verbose} : Wants l (.build path verbose) (.build l.order)
  | clean {path force silent} : Wants l (.clean path force silent) (.clean force l.answer)
  | random {path force connected cycle vertexCount edgeCount n} : ArgNat vertexCount n → n * 3 < 2 ^ 64 →
      Wants l (.random path force connected cycle vertexCount edgeCount) (.random l.generated l.order force l.answer)

/-- The change of the graph at `root` that a typed line asks for, if any. -/
inductive Requests (dir : Text → Store.FPath) (root : Store.FPath) (l : Typed) : Option Store.Cmd → Prop where
  /-- A line that is not in order asks for nothing. -/
  | refused : (∀ us, ¬InOrder l.tool l.words us) → Requests dir root l none
  /-- A query, or a refused gc-random. -/
  | nothing {us} : InOrder l.tool l.words us → (∀ cmd, ¬ Wants l (asks l.tool us) cmd) → Requests dir root l none
  /-- A change, in the directory that the line names. -/
  | change {us cmd} : InOrder l.tool l.words us → Wants l (asks l.tool us) cmd → dir (oneOr us "path" ['.']) = root →
      Requests dir root l (some cmd)

/-- The changes that some typed lines ask for, in order. -/
inductive AllRequests (dir : Text → Store.FPath) (root : Store.FPath) : List Typed → List Store.Cmd → Prop where
  | nil : AllRequests dir root [] []
  | skip {l ls cmds} : Requests dir root l none → AllRequests dir root ls cmds → AllRequests dir root (l :: ls) cmds
  | cons {l ls cmd cmds} : Requests dir root l (some cmd) → AllRequests dir root ls cmds → AllRequests dir root (l :: ls) (cmd :: cmds)

end Cli
end GC
