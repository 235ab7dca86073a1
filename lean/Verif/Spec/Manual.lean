/-
The manual: what README.md 42-270 says about the arguments of the binaries, in its order. The numbers of values are not in README.md;
they are given as in the code.
-/
import Verif.Spec.Cli
namespace GC
namespace Manual
open Text Clap Cli

/-- How many values an option takes. -/
inductive Values where
  /-- One: the next word. -/
  | one
  /-- All words that follow; one is enough, more are refused. -/
  | single
  /-- All words that follow, at least so many. -/
  | atLeast (n : Nat)
  /-- All words that follow, at least one; the option can be repeated. -/
  | repeated
  /-- All words that follow, one at most. -/
  | atMostOne

/-- `-c, --name`. -/
def flag (c : Option Char) (name : String) : Arg :=
  { name := name.toList, short := c, takesValue := false, multiple := false, required := false, minValues := none, maxValues := none, default := none }

/-- `-c, --name`, for which the code gives a limit of one value (of no effect, as there are no values). -/
def flag1 (c : Option Char) (name : String) : Arg := { flag c name with maxValues := some 1 }

/-- `-c, --name <name>`. -/
def option (c : Option Char) (name : String) (v : Values) : Arg where
  name := name.toList
  short := c
  takesValue := true
  multiple := match v with | .repeated => true | _ => false
  required := false
  minValues := match v with | .one => none | .single => some 1 | .atLeast n => some n | .repeated => some 1 | .atMostOne => none
  maxValues := match v with | .one => none | .single => some 1 | .atLeast _ => none | .repeated => none | .atMostOne => some 1
  default := none

/-- `[default: text]`. -/
def withDefault (a : Arg) (text : String) : Arg := { a with default := some text.toList }
/-- The option is in the usage line: it must be given (or have a default value). -/
def needed (a : Arg) : Arg := { a with required := true }

/-- `-p, --path <path>  Use the specified directory instead of the current one [default: .]`. -/
def path : Arg := withDefault (option (some 'p') "path" .one) "."

/-- README.md 42-270. The flags for help and version are clap's. -/
def manual : Tool → App
  | .add => ⟨[
      flag1 (some 'r') "reverse",
      option (some 'c') "chain" (.atLeast 2),
      option (some 'C') "clique" (.atLeast 2),
      option (some 'O') "cycle" (.atLeast 2),
      option (some 'e') "edge" (.atLeast 2),
      needed path,
      option (some 'X') "star" (.atLeast 2),
      option (some 'v') "vertex" .repeated], []⟩
  | .build => ⟨[
      needed path,
      withDefault (option (some 'v') "verbose" .atMostOne) "false"], []⟩
  | .clean => ⟨[
      flag1 (some 'f') "force",
      flag1 (some 's') "silent",
      needed path], []⟩
  | .csp => ⟨[
      flag none "include-cycle",
      flag none "no-cycle",
      needed (option (some 'e') "end" .atMostOne),
      option none "exact-length" .single,
      option none "exact-score" .single,
      option none "exclude" (.atLeast 1),
      option none "include" (.atLeast 1),
      option none "max-length" .single,
      option none "max-score" .single,
      option none "min-length" .single,
      option none "min-score" .single,
      option none "ordered" (.atLeast 2),
      needed path,
      needed (option (some 's') "start" .atMostOne)], []⟩
  | .cycle => ⟨[
      flag (some 'a') "all",
      flag (some 'c') "count",
      flag none "girth",
      flag none "hamiltonian",
      flag (some 'h') "head",
      flag (some 'L') "longest",
      flag (some 's') "shortest",
      option none "exact-length" .one,
      option none "exact-score" .one,
      option none "exclude-all" .one,
      option none "exclude-all-edges" .one,
      option none "include-all" .one,
      option none "include-all-edges" .one,
      option none "max-length" .one,
      option none "max-score" .one,
      option none "min-length" .one,
      option none "min-score" .one,
      needed path,
      option (some 'n') "take-n" .one],
      ["girth", "hamiltonian", "count", "head", "take-n", "all", "shortest", "longest"].map String.toList⟩
  | .delete => ⟨[
      option (some 'e') "edge" (.atLeast 2),
      needed path,
      option (some 'v') "vertex" .repeated], []⟩
  | .desc => ⟨[needed path], []⟩
  | .init => ⟨[path], []⟩
  | .random => ⟨[
      flag (some 'c') "connected",
      flag (some 'f') "force",
      option (some 'O') "cycle" (.atLeast 2),
      option (some 'e') "edge-count" .one,
      needed path,
      needed (withDefault (option (some 'v') "vertex-count" .one) "100")], []⟩
  | .shortPath => ⟨[
      needed (option (some 'e') "end" .atMostOne),
      needed path,
      needed (option (some 's') "start" .atMostOne)], []⟩
  | .topoSort => ⟨[needed path], []⟩

/-- The words are uses of arguments of the manual, and these are in order. -/
def ByManual (t : Tool) (ws : List Text) (us : List Use) : Prop := Line (manual t) ws us ∧ Admissible (manual t) us

end Manual
end GC
