/-
Files and standard input as bytes: what core/src/format/utils.rs reads and core/src/format/gcmd.rs writes below the level of text.
The other files of the model treat a file as the text it encodes; this one models the encoding, so that files that are not UTF-8 are
covered too.
-/
import Verif.Model.Store
namespace GC
namespace Bytes
open Text Format Store

/-- Content of a file as core/src/format/utils.rs 39-41 reads it. -/
abbrev Raw := List UInt8

/-- std `char::encode_utf8`: what `writeln!` of a `BufWriter` writes for one character (core/src/format/gcmd.rs 83-88, 98-101). -/
def encodeChar (c : Char) : Raw :=
  let n := c.toNat
  if n < 0x80 then [UInt8.ofNat n]
  else if n < 0x800 then [UInt8.ofNat (0xC0 + n / 64), UInt8.ofNat (0x80 + n % 64)]
  else if n < 0x10000 then [UInt8.ofNat (0xE0 + n / 4096), UInt8.ofNat (0x80 + n / 64 % 64), UInt8.ofNat (0x80 + n % 64)]
  else [UInt8.ofNat (0xF0 + n / 262144), UInt8.ofNat (0x80 + n / 4096 % 64), UInt8.ofNat (0x80 + n / 64 % 64),
    UInt8.ofNat (0x80 + n % 64)]

/-- The bytes of a `String`. Written at core/src/format/gcmd.rs 84-88, 98-101. -/
def encode (s : Text) : Raw := s.flatMap encodeChar

/-- std `run_utf8_validation`: a continuation byte. std, used at core/src/format/utils.rs 39-41. -/
def cont (b : UInt8) : Bool := decide (0x80 ≤ b.toNat) && decide (b.toNat ≤ 0xBF)

/-- std `run_utf8_validation`: first and second byte of a sequence of two. std, used at core/src/format/utils.rs 39-41. -/
def two (b0 b1 : UInt8) : Bool := decide (0xC2 ≤ b0.toNat) && decide (b0.toNat ≤ 0xDF) && cont b1

/-- std `run_utf8_validation`: a sequence of three bytes. std, used at core/src/format/utils.rs 39-41. -/
def three (b0 b1 b2 : UInt8) : Bool :=
  ((b0.toNat == 0xE0 && decide (0xA0 ≤ b1.toNat) && decide (b1.toNat ≤ 0xBF)) ||
   (decide (0xE1 ≤ b0.toNat) && decide (b0.toNat ≤ 0xEC) && cont b1) ||
   (b0.toNat == 0xED && decide (0x80 ≤ b1.toNat) && decide (b1.toNat ≤ 0x9F)) ||
   (decide (0xEE ≤ b0.toNat) && decide (b0.toNat ≤ 0xEF) && cont b1)) && cont b2

/-- std `run_utf8_validation`: a sequence of four bytes. std, used at core/src/format/utils.rs 39-41. -/
def four (b0 b1 b2 b3 : UInt8) : Bool :=
  ((b0.toNat == 0xF0 && decide (0x90 ≤ b1.toNat) && decide (b1.toNat ≤ 0xBF)) ||
   (decide (0xF1 ≤ b0.toNat) && decide (b0.toNat ≤ 0xF3) && cont b1) ||
   (b0.toNat == 0xF4 && decide (0x80 ≤ b1.toNat) && decide (b1.toNat ≤ 0x8F))) && cont b2 && cont b3

/-- std `str::from_utf8` and `str::chars`: the text, or `none` if the bytes are not valid UTF-8. std, used at core/src/format/utils.rs 39-41. -/
def decode : Raw → Option Text
  | [] => some []
  | b0 :: r0 =>
    if b0.toNat < 0x80 then (decode r0).map (Char.ofNat b0.toNat :: ·)
    else
      match r0 with
      | [] => none
      | b1 :: r1 =>
        if two b0 b1 then (decode r1).map (Char.ofNat ((b0.toNat - 0xC0) * 64 + (b1.toNat - 0x80)) :: ·)
        else
          match r1 with
          | [] => none
          | b2 :: r2 =>
            if three b0 b1 b2 then
              (decode r2).map (Char.ofNat ((b0.toNat - 0xE0) * 4096 + (b1.toNat - 0x80) * 64 + (b2.toNat - 0x80)) :: ·)
            else
              match r2 with
              | [] => none
              | b3 :: r3 =>
                if four b0 b1 b2 b3 then
                  (decode r3).map (Char.ofNat ((b0.toNat - 0xF0) * 262144 + (b1.toNat - 0x80) * 4096 + (b2.toNat - 0x80) * 64 +
                    (b3.toNat - 0x80)) :: ·)
                else none

/-- std `BufRead::read_until(b'\n')`, called until the end of the file: the lines with their line feeds. `cur` is the part of the
current line that was already read. std, used at core/src/format/utils.rs 39-41. -/
def rawLines (cur : Raw) : Raw → List Raw
  | [] => if cur.isEmpty then [] else [cur]
  | b :: bs => if b = 10 then (cur ++ [b]) :: rawLines [] bs else rawLines (cur ++ [b]) bs

/-- std `Lines::next`: the line read is decoded, then a line feed and a carriage return before it are removed. `none`: the error
`InvalidData`. std, used at core/src/format/utils.rs 39-41. -/
def lineOf (raw : Raw) : Option Text :=
  (decode raw).map fun s => if s.getLast? = some '\n' then stripCr s.dropLast else s

/-- core/src/format/utils.rs 41-49: the loop over the enumerated lines, with `line.unwrap()`. -/
def readLoop (parse : Text → Run (Except Text GraphCommand)) :
    Nat → List Raw → List GraphCommand → Run (Except ReadError (List GraphCommand))
  | _, [], result => .done (.ok result)
  | index, raw :: rest, result =>
    (Run.unwrap (lineOf raw)).bind fun line =>
      if !line.isEmpty && !isComment line then
        (parse line).bind fun r =>
          match r with
          | .ok command => readLoop parse (index + 1) rest (result ++ [command])
          | .error msg => .done (.error (.atLine (index + 1) msg))
      else readLoop parse (index + 1) rest result

/-- core/src/format/utils.rs 30-51. -/
def readAsCommands (parse : Text → Run (Except Text GraphCommand)) (file : Raw) : Run (Except ReadError (List GraphCommand)) :=
  readLoop parse 0 (rawLines [] file) []

/-- core/src/format/utils.rs 13-27. -/
def read (parse : Text → Run (Except Text GraphCommand)) (file : Raw) : Run (Except ReadError DirectedGraph) :=
  (readAsCommands parse file).bind fun r =>
    match r with
    | .ok cs => .done (.ok (GraphCommand.applyCommands cs .new))
    | .error e => .done (.error e)

/-- core/src/format/gcmd.rs 95-103: the file afterwards. -/
def addCommands (file : Raw) (cs : List GraphCommand) : Raw := file ++ encode (Gcmd.commandsText cs)

/-- command/src/bin/gc-build.rs 31-43 on the commands file: the file afterwards. `order` is the iteration order of the hash map. -/
def build (nd : Char → Bool) (order : DirectedGraph → DirectedGraph) (file : Raw) : Raw × Exit :=
  match read (Gcmd.parseLine nd) file with
  | .done (.ok g) => (encode (Gcmd.save (order g)), .success)
  | _ => (file, .panic)

/-- std `Stdin::read_line`: the bytes up to the first line feed, or all of them. Used at command/src/arg_utils.rs 45-47. -/
def firstLine : Raw → Raw
  | [] => []
  | b :: bs => if b = 10 then [b] else b :: firstLine bs

/-- command/src/arg_utils.rs 42-52: `read_line(..).expect(..)` and the comparison. `stdin` is everything the user will ever type. -/
def confirmationYesNo (stdin : Raw) : Run Bool :=
  (Run.unwrap (decode (firstLine stdin))).bind fun buffer => .done (Args.confirmationYesNo buffer)

/-- command/src/bin/gc-clean.rs 40-61 with the bytes typed by the user. -/
def gcClean (root : FPath) (force : Bool) (stdin : Raw) (fs : FS) : FS × Exit :=
  if force then expectOk (clean root fs)
  else
    match confirmationYesNo stdin with
    | .done true => expectOk (clean root fs)
    | .done false => (fs, .success)
    | _ => (fs, .panic)

end Bytes
end GC
