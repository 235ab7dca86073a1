/-
Model of the command lines: the part of the crate clap (version 2.33.0, see Cargo.lock) that is used by the binaries in command/src/bin.

clap is no part of /repo, its source was not at hand: this is written from knowledge of its documented and actual behaviour (`Parser::get_matches_with`,
`parse_long_arg`, `parse_short_arg`, `parse_opt`, `add_val_to_arg`, `ArgMatcher::needs_more_vals`, `Parser::add_defaults` and `Validator`).
The binaries use no subcommands, no positional arguments, no delimiters, and give each option the same long name as its identifier.
Arguments are text (valid UTF-8). What is printed by `--help`, `--version` and for errors is not modelled.
-/
import Verif.Model.Text
namespace GC
namespace Clap
open Text

/-- clap `Arg`; the name is also the long name. clap is not in /repo; declarations at command/src/bin/gc-add.rs 8-85, gc-cycle.rs 15-166, gc-csp.rs
11-134 and likewise in the others. -/
structure Arg where
  name : Text
  short : Option Char := none
  takesValue : Bool := false
  multiple : Bool := false
  required : Bool := false
  minValues : Option Nat := none
  maxValues : Option Nat := none
  default : Option Text := none
deriving DecidableEq

/-- clap `Arg::with_name(name).long(name)`. clap is not in /repo; declarations at command/src/bin/gc-add.rs 8-85, gc-cycle.rs 15-166, gc-csp.rs
11-134 and likewise in the others. -/
def arg (name : String) : Arg := { name := name.toList }
/-- clap `Arg::short`: leading hyphens are dropped (`short("-O")` in command/src/bin/gc-add.rs 61). -/
def Arg.shortName (a : Arg) (c : Char) : Arg := { a with short := some c }
/-- clap `Arg::takes_value`. clap is not in /repo; declarations at command/src/bin/gc-add.rs 8-85, gc-cycle.rs 15-166, gc-csp.rs 11-134 and
likewise in the others. -/
def Arg.value (a : Arg) (b : Bool) : Arg := { a with takesValue := b }
/-- clap `Arg::multiple`. clap is not in /repo; declarations at command/src/bin/gc-add.rs 8-85, gc-cycle.rs 15-166, gc-csp.rs 11-134 and likewise
in the others. -/
def Arg.many (a : Arg) (b : Bool) : Arg := { a with multiple := b }
/-- clap `Arg::required`. clap is not in /repo; declarations at command/src/bin/gc-add.rs 8-85, gc-cycle.rs 15-166, gc-csp.rs 11-134 and likewise
in the others. -/
def Arg.req (a : Arg) (b : Bool) : Arg := { a with required := b }
/-- clap `Arg::min_values`: also makes the argument take values. clap is not in /repo; declarations at command/src/bin/gc-add.rs 8-85, gc-cycle.rs
15-166, gc-csp.rs 11-134 and likewise in the others. -/
def Arg.atLeast (a : Arg) (n : Nat) : Arg := { a with takesValue := true, minValues := some n }
/-- clap `Arg::max_values`: also makes the argument take values. clap is not in /repo; declarations at command/src/bin/gc-add.rs 8-85, gc-cycle.rs
15-166, gc-csp.rs 11-134 and likewise in the others. -/
def Arg.atMost (a : Arg) (n : Nat) : Arg := { a with takesValue := true, maxValues := some n }
/-- clap `Arg::default_value`: also makes the argument take values. clap is not in /repo; declarations at command/src/bin/gc-add.rs 8-85,
gc-cycle.rs 15-166, gc-csp.rs 11-134 and likewise in the others. -/
def Arg.defaultsTo (a : Arg) (t : String) : Arg := { a with takesValue := true, default := some t.toList }

/-- clap `App`: its arguments, and the names in its `ArgGroup` (required, not multiple; only gc-cycle has one). clap is not in /repo; declarations
at command/src/bin/gc-add.rs 8-85, gc-cycle.rs 15-166, gc-csp.rs 11-134 and likewise in the others. -/
structure App where
  args : List Arg
  group : List Text := []

/-- clap `MatchedArg`: how often the argument was named, and its values. clap is not in /repo; used at command/src/bin/gc-add.rs 87-128,
gc-cycle.rs 168-225, gc-csp.rs 136-198. -/
structure Matched where
  occurs : Nat
  vals : List Text
deriving DecidableEq, Repr

/-- clap `ArgMatches`. clap is not in /repo; used at command/src/bin/gc-add.rs 87-128, gc-cycle.rs 168-225, gc-csp.rs 136-198. -/
abbrev Matches := Text → Option Matched

/-- clap `ArgMatcher::inc_occurrence_of`. clap is not in /repo; the parse is started by `get_matches` in the binaries, e.g.
command/src/bin/gc-add.rs 85, gc-cycle.rs 166, gc-csp.rs 134. -/
def Matches.inc (m : Matches) (name : Text) : Matches := fun n =>
  if n = name then
    match m name with
    | none => some ⟨1, []⟩
    | some x => some ⟨x.occurs + 1, x.vals⟩
  else m n

/-- clap `ArgMatcher::add_val_to`. clap is not in /repo; the parse is started by `get_matches` in the binaries, e.g. command/src/bin/gc-add.rs 85,
gc-cycle.rs 166, gc-csp.rs 134. -/
def Matches.add (m : Matches) (name v : Text) : Matches := fun n =>
  if n = name then
    match m name with
    | none => some ⟨0, [v]⟩
    | some x => some ⟨x.occurs, x.vals ++ [v]⟩
  else m n

/-- clap `ArgMatches::values_of`. clap is not in /repo; used at command/src/bin/gc-add.rs 87-128, gc-cycle.rs 168-225, gc-csp.rs 136-198. -/
def Matches.values (m : Matches) (name : String) : Option (List Text) := (m name.toList).map (·.vals)
/-- clap `ArgMatches::value_of`: the first value. clap is not in /repo; used at command/src/bin/gc-add.rs 87-128, gc-cycle.rs 168-225, gc-csp.rs
136-198. -/
def Matches.value (m : Matches) (name : String) : Option Text := (m name.toList).bind (·.vals.head?)
/-- clap `ArgMatches::is_present`: also true for an argument that has its default value. clap is not in /repo; used at command/src/bin/gc-add.rs
87-128, gc-cycle.rs 168-225, gc-csp.rs 136-198. -/
def Matches.present (m : Matches) (name : String) : Bool := (m name.toList).isSome

/-- clap `ParseResult`: the next argument may be a value of an option, or must be something new, or (after a flag, at the start) none of both. clap
is not in /repo; the parse is started by `get_matches` in the binaries, e.g. command/src/bin/gc-add.rs 85, gc-cycle.rs 166, gc-csp.rs 134. -/
inductive Needs where
  | nothing
  | values (o : Arg)
  | done

/-- What is known in the middle of a command line; `trailing`: after `--`. clap is not in /repo; the parse is started by `get_matches` in the
binaries, e.g. command/src/bin/gc-add.rs 85, gc-cycle.rs 166, gc-csp.rs 134. -/
structure State where
  needs : Needs
  found : Matches
  trailing : Bool

/-- Why the command line is not run: a text is printed and the process exits, with code 0 (`--help`, `--version`) or 1. clap is not in /repo; the
parse is started by `get_matches` in the binaries, e.g. command/src/bin/gc-add.rs 85, gc-cycle.rs 166, gc-csp.rs 134. -/
inductive Stop where
  | help
  | version
  | error
deriving DecidableEq, Repr

/-- Options (arguments with values) by long name. clap is not in /repo; the parse is started by `get_matches` in the binaries, e.g.
command/src/bin/gc-add.rs 85, gc-cycle.rs 166, gc-csp.rs 134. -/
def App.optLong (app : App) (n : Text) : Option Arg := app.args.find? fun a => a.takesValue && a.name == n
/-- Options by short name. clap is not in /repo; the parse is started by `get_matches` in the binaries, e.g. command/src/bin/gc-add.rs 85,
gc-cycle.rs 166, gc-csp.rs 134. -/
def App.optShort (app : App) (c : Char) : Option Arg := app.args.find? fun a => a.takesValue && a.short == some c
/-- Flags (arguments without values) by long name. clap is not in /repo; the parse is started by `get_matches` in the binaries, e.g.
command/src/bin/gc-add.rs 85, gc-cycle.rs 166, gc-csp.rs 134. -/
def App.flagLong (app : App) (n : Text) : Option Arg := app.args.find? fun a => !a.takesValue && a.name == n
/-- Flags by short name. clap is not in /repo; the parse is started by `get_matches` in the binaries, e.g. command/src/bin/gc-add.rs 85,
gc-cycle.rs 166, gc-csp.rs 134. -/
def App.flagShort (app : App) (c : Char) : Option Arg := app.args.find? fun a => !a.takesValue && a.short == some c

/-- clap `ArgMatcher::needs_more_vals`, with the number of values so far. clap is not in /repo; the parse is started by `get_matches` in the
binaries, e.g. command/src/bin/gc-add.rs 85, gc-cycle.rs 166, gc-csp.rs 134. -/
def Arg.needsMore (o : Arg) (n : Nat) : Bool :=
  match o.maxValues with
  | some k => !(decide (n > k))
  | none =>
    match o.minValues with
    | some _ => true
    | none => o.multiple

/-- Number of values. clap is not in /repo; used at command/src/bin/gc-add.rs 87-128, gc-cycle.rs 168-225, gc-csp.rs 136-198. -/
def Matches.count (m : Matches) (name : Text) : Nat :=
  match m name with
  | some x => x.vals.length
  | none => 0

/-- clap `Parser::add_val_to_arg`. clap is not in /repo; the parse is started by `get_matches` in the binaries, e.g. command/src/bin/gc-add.rs 85,
gc-cycle.rs 166, gc-csp.rs 134. -/
def addValue (o : Arg) (v : Text) (s : State) : State :=
  let found := s.found.add o.name v
  { s with needs := if o.needsMore (found.count o.name) then .values o else .done, found }

/-- clap `Parser::parse_opt`; `val` is the rest of the argument, if any, `hadEq` tells whether it came after `=`. clap is not in /repo; the parse
is started by `get_matches` in the binaries, e.g. command/src/bin/gc-add.rs 85, gc-cycle.rs 166, gc-csp.rs 134. -/
def parseOpt (o : Arg) (val : Option Text) (hadEq : Bool) (s : State) : State :=
  match val with
  | none => { s with needs := .values o, found := s.found.inc o.name }
  | some fv =>
    let hasEq := fv.head? == some '=' || hadEq
    let found := (s.found.add o.name (fv.dropWhile (· == '='))).inc o.name
    { s with needs := if o.multiple && !hasEq && o.needsMore (found.count o.name) then .values o else .done, found }

/-- clap `Parser::parse_flag`. clap is not in /repo; the parse is started by `get_matches` in the binaries, e.g. command/src/bin/gc-add.rs 85,
gc-cycle.rs 166, gc-csp.rs 134. -/
def parseFlag (f : Arg) (s : State) : State := { s with needs := .nothing, found := s.found.inc f.name }

/-- clap `Parser::parse_long_arg`: all leading hyphens are dropped; what follows `=` is ignored for a flag. clap is not in /repo; the parse is
started by `get_matches` in the binaries, e.g. command/src/bin/gc-add.rs 85, gc-cycle.rs 166, gc-csp.rs 134. -/
def parseLong (app : App) (t : Text) (s : State) : Except Stop State :=
  let body := t.dropWhile (· == '-')
  let name := body.takeWhile (· != '=')
  let val := if body.contains '=' then some ((body.dropWhile (· != '=')).drop 1) else none
  match app.optLong name with
  | some o => .ok (parseOpt o val val.isSome s)
  | none =>
    if name = "help".toList then .error .help
    else if name = "version".toList then .error .version
    else
      match app.flagLong name with
      | some f => .ok (parseFlag f s)
      | none => .error .error

/-- clap `Parser::parse_short_arg`, without the leading hyphen: flags, and at the end an option with the rest as its value. clap is not in /repo;
the parse is started by `get_matches` in the binaries, e.g. command/src/bin/gc-add.rs 85, gc-cycle.rs 166, gc-csp.rs 134. -/
def parseShort (app : App) : Text → State → Except Stop State
  | [], s => .ok s
  | c :: rest, s =>
    match app.optShort c with
    | some o => .ok (parseOpt o (if rest.isEmpty then none else some rest) false s)
    | none =>
      match app.flagShort c with
      | some f => parseShort app rest (parseFlag f s)
      | none =>
        if c = 'h' then .error .help
        else if c = 'V' then .error .version
        else .error .error

/-- clap `Parser::is_new_arg`: the argument is no value. A single hyphen is a value. clap is not in /repo; the parse is started by `get_matches` in
the binaries, e.g. command/src/bin/gc-add.rs 85, gc-cycle.rs 166, gc-csp.rs 134. -/
def isNew (needs : Needs) (t : Text) : Bool :=
  match needs with
  | .done => true
  | _ => t.head? == some '-' && decide (t.length ≠ 1)

/-- clap `Parser::get_matches_with`, one argument. clap is not in /repo; the parse is started by `get_matches` in the binaries, e.g.
command/src/bin/gc-add.rs 85, gc-cycle.rs 166, gc-csp.rs 134. -/
def step (app : App) (t : Text) (s : State) : Except Stop State :=
  if s.trailing then .error .error
  else if isNew s.needs t then
    if t = ['-', '-'] then .ok { s with trailing := true }
    else if ['-', '-'].isPrefixOf t then parseLong app t s
    else if t.head? == some '-' && decide (t.length ≠ 1) then parseShort app t.tail s
    else .error .error
  else
    match s.needs with
    | .values o => .ok (addValue o t s)
    | _ => .error .error

/-- clap `Parser::get_matches_with`, all arguments. clap is not in /repo; the parse is started by `get_matches` in the binaries, e.g.
command/src/bin/gc-add.rs 85, gc-cycle.rs 166, gc-csp.rs 134. -/
def steps (app : App) : List Text → State → Except Stop State
  | [], s => .ok s
  | t :: ts, s =>
    match step app t s with
    | .ok s => steps app ts s
    | .error e => .error e

/-- clap `Parser::add_defaults`: options without a value get their default value, also if they were named. clap is not in /repo; the parse is
started by `get_matches` in the binaries, e.g. command/src/bin/gc-add.rs 85, gc-cycle.rs 166, gc-csp.rs 134. -/
def addDefaults (app : App) (m : Matches) : Matches :=
  app.args.foldl (fun m o =>
    match o.default with
    | some d => if o.takesValue && decide (m.count o.name = 0) then m.add o.name d else m
    | none => m) m

/-- clap `Validator::validate_arg_num_vals` and `validate_arg_num_occurs`. clap is not in /repo; the parse is started by `get_matches` in the
binaries, e.g. command/src/bin/gc-add.rs 85, gc-cycle.rs 166, gc-csp.rs 134. -/
def validMatched (a : Arg) (x : Matched) : Bool :=
  (!a.takesValue || ((match a.maxValues with
      | some k => decide (x.vals.length ≤ k)
      | none => true) &&
    (match a.minValues with
      | some k => decide (k ≤ x.vals.length)
      | none => true) &&
    (a.minValues == some 0 || !x.vals.isEmpty))) &&
  (decide (x.occurs ≤ 1) || a.multiple)

/-- clap `Validator::validate`: an option that waits for its first value, two arguments of the group, missing required arguments, wrong
numbers of values or occurrences. clap is not in /repo; the parse is started by `get_matches` in the binaries, e.g. command/src/bin/gc-add.rs 85,
gc-cycle.rs 166, gc-csp.rs 134. -/
def valid (app : App) (needs : Needs) (m : Matches) : Bool :=
  (match needs with
    | .values o => o.minValues == some 0 || decide (m.count o.name ≠ 0)
    | _ => true) &&
  (app.group.filter fun n => (m n).isSome).length == (if app.group.isEmpty then 0 else 1) &&
  app.args.all fun a =>
    match m a.name with
    | some x => validMatched a x
    | none => !a.required

/-- clap `App::get_matches`, on the arguments after the name of the program. clap is not in /repo; the parse is started by `get_matches` in the
binaries, e.g. command/src/bin/gc-add.rs 85, gc-cycle.rs 166, gc-csp.rs 134. -/
def parse (app : App) (args : List Text) : Except Stop Matches :=
  match steps app args ⟨.nothing, fun _ => none, false⟩ with
  | .error e => .error e
  | .ok s =>
    let m := addDefaults app s.found
    if valid app s.needs m then .ok m else .error .error

end Clap
end GC
