/-
Reading files and standard input call by call: the operating system hands out the bytes in pieces of any size, may interrupt a call, and a
call may fail. Models how core/src/format/utils.rs 40-51 and command/src/arg_utils.rs 42-52 use the `BufReader` of std.
-/
import Verif.Model.Bytes
import Verif.Model.Prog
namespace GC
namespace Reads
open Text Format Bytes Store

/-- What one `read(2)` gives; after the last of a list of events every call gives 0 bytes, the end of the file. Operating system, through
core/src/format/utils.rs 39-41. -/
inductive Event where
  /-- some bytes, at least one -/
  | data (first : UInt8) (rest : Raw)
  /-- `ErrorKind::Interrupted` -/
  | interrupted
  /-- any other error -/
  | failed

/-- std `BufReader`: the bytes read ahead, and the calls to come. std, used at core/src/format/utils.rs 39-41. -/
structure Reader where
  buffer : Raw
  events : List Event

/-- std `memchr`: the bytes up to and including the first line feed, and the rest. std, used at core/src/format/utils.rs 39-41. -/
def splitNewline : Raw → Option (Raw × Raw)
  | [] => none
  | b :: bs => if b = 10 then some ([b], bs) else (splitNewline bs).map fun p => (b :: p.1, p.2)

/-- std `read_until(b'\n')`; `cur` is what this call has collected. If the buffer holds no line feed all of it is taken and `read` is called
again; interrupted calls are repeated. `none`: an error. std, used at core/src/format/utils.rs 39-41. -/
def readUntil (cur buffer : Raw) : List Event → Option Raw × Reader
  | [] =>
    match splitNewline buffer with
    | some (line, rest) => (some (cur ++ line), ⟨rest, []⟩)
    | none => (some (cur ++ buffer), ⟨[], []⟩)
  | .data b bs :: es =>
    match splitNewline buffer with
    | some (line, rest) => (some (cur ++ line), ⟨rest, .data b bs :: es⟩)
    | none => readUntil (cur ++ buffer) (b :: bs) es
  | .interrupted :: es =>
    match splitNewline buffer with
    | some (line, rest) => (some (cur ++ line), ⟨rest, .interrupted :: es⟩)
    | none => readUntil (cur ++ buffer) [] es
  | .failed :: es =>
    match splitNewline buffer with
    | some (line, rest) => (some (cur ++ line), ⟨rest, .failed :: es⟩)
    | none => (none, ⟨[], es⟩)

/-- One round of core/src/format/utils.rs 41-49: `Lines::next` (no item if no byte is left), `line.unwrap()`, and the body of the loop. The
state is the index, the reader and the commands so far. -/
def readStep (parse : Text → Run (Except Text GraphCommand)) (s : Nat × Reader × List GraphCommand) :
    Prog ((Nat × Reader × List GraphCommand) ⊕ Except ReadError (List GraphCommand)) :=
  Prog.bind (Prog.lift (Run.unwrap (readUntil [] s.2.1.buffer s.2.1.events).1)) fun raw =>
    if raw.isEmpty then Prog.ret (.inr (.ok s.2.2))
    else
      Prog.bind (Prog.lift (Run.unwrap (lineOf raw))) fun line =>
        let reader := (readUntil [] s.2.1.buffer s.2.1.events).2
        if !line.isEmpty && !isComment line then
          Prog.bind (Prog.lift (parse line)) fun r =>
            match r with
            | .ok command => Prog.ret (.inl (s.1 + 1, reader, s.2.2 ++ [command]))
            | .error msg => Prog.ret (.inr (.error (.atLine (s.1 + 1) msg)))
        else Prog.ret (.inl (s.1 + 1, reader, s.2.2))

/-- core/src/format/utils.rs 30-51 for a file that is read by these calls. -/
def readAsCommands (parse : Text → Run (Except Text GraphCommand)) (file : List Event) : Prog (Except ReadError (List GraphCommand)) :=
  Prog.loop (readStep parse) (0, ⟨[], file⟩, [])

/-- core/src/format/utils.rs 13-27. -/
def read (parse : Text → Run (Except Text GraphCommand)) (file : List Event) : Prog (Except ReadError DirectedGraph) :=
  Prog.bind (readAsCommands parse file) fun r =>
    match r with
    | .ok cs => Prog.ret (.ok (GraphCommand.applyCommands cs .new))
    | .error e => Prog.ret (.error e)

/-- command/src/graph_utils.rs 57-62: the result of `File::open`, and the calls that read the open file. -/
def loadGraphFromPath (nd : Char → Bool) (opened : Except IoError (List Event)) : Prog (Except LoadError DirectedGraph) :=
  match opened with
  | .ok commands =>
    Prog.bind (read (Gcmd.parseLine nd) commands) fun r =>
      match r with
      | .ok g => Prog.ret (.ok g)
      | .error e => Prog.ret (.error (.parse e))
  | .error e => Prog.ret (.error (.io e))

/-- command/src/arg_utils.rs 42-52: `read_line(..).expect(..)`, which fails for bytes that are not UTF-8, and the comparison. -/
def confirmationYesNo (stdin : List Event) : Run Bool :=
  (Run.unwrap (readUntil [] [] stdin).1).bind fun raw =>
    (Run.unwrap (decode raw)).bind fun buffer => .done (Args.confirmationYesNo buffer)

/-- command/src/bin/gc-clean.rs 40-61. -/
def gcClean (root : FPath) (force : Bool) (stdin : List Event) (fs : FS) : FS × Exit :=
  if force then expectOk (clean root fs)
  else
    match confirmationYesNo stdin with
    | .done true => expectOk (clean root fs)
    | .done false => (fs, .success)
    | _ => (fs, .panic)

end Reads
end GC
