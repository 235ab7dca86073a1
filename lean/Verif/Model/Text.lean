/-
Model of the text primitives used by the file formats and the argument parsers: characters classes of the `regex` crate,
`str::parse`, integer `Display`, `str::trim`, `BufRead::lines`. Text is a list of Unicode scalar values.
-/
import Verif.Model.Graph
namespace GC

/-- `String` and `&str`, e.g. core/src/format/gcmd.rs 43. -/
abbrev Text := List Char

namespace Text

/-- ASCII digit, the digits accepted by `u64::from_str`. std, used at core/src/format/gcmd.rs 52-63, core/src/format/tgf.rs 36-40,
command/src/arg_utils.rs 22. -/
def isAsciiDigit (c : Char) : Bool := decide (48 ≤ c.toNat) && decide (c.toNat ≤ 57)

/-- Unicode property White_Space: `\s` of the `regex` crate and `char::is_whitespace`. Used through core/src/format/gcmd.rs 46, 48, 71 and
core/src/format/tgf.rs 32, 48. -/
def isWhite (c : Char) : Bool :=
  let n := c.toNat
  (decide (9 ≤ n) && decide (n ≤ 13)) || n == 32 || n == 133 || n == 160 || n == 5760 ||
  (decide (8192 ≤ n) && decide (n ≤ 8202)) || n == 8232 || n == 8233 || n == 8239 || n == 8287 || n == 12288

/-- `\d` of the `regex` crate: Unicode decimal digits. The non-ASCII digits depend on the Unicode version, they are given by the
parameter `nd`; digits are never ASCII letters or white space. Used through core/src/format/gcmd.rs 45-48 and core/src/format/tgf.rs 31-32. -/
def isDigit (nd : Char → Bool) (c : Char) : Bool :=
  isAsciiDigit c || (decide (128 ≤ c.toNat) && !isWhite c && nd c)

/-- The character of a decimal digit. std, used at core/src/format/gcmd.rs 105-113 and by the `println!` of the binaries, e.g.
command/src/bin/gc-short-path.rs 62-68. -/
def digitChar (d : Nat) : Char := Char.ofNat (48 + d)

/-- Decimal digits of `n`, at most `fuel` of them. std, used at core/src/format/gcmd.rs 105-113 and by the `println!` of the binaries, e.g.
command/src/bin/gc-short-path.rs 62-68. -/
def showFuel : Nat → Nat → Text
  | 0, _ => []
  | f + 1, n => if n < 10 then [digitChar n] else showFuel f (n / 10) ++ [digitChar (n % 10)]

/-- `Display` of `u64` (a `u64` has at most 20 digits). std, used at core/src/format/gcmd.rs 105-113 and by the `println!` of the binaries, e.g.
command/src/bin/gc-short-path.rs 62-68. -/
def showU64 (x : UInt64) : Text := showFuel 20 x.toNat

/-- `Display` of a vertex id, `{}` applied to `VertexId.0`. core/src/format/gcmd.rs 107-111. -/
def showId (v : VertexId) : Text := showU64 v.id

/-- Value of a digit string. std, used at core/src/format/gcmd.rs 52-63, core/src/format/tgf.rs 36-40, command/src/arg_utils.rs 22. -/
def digitsVal (s : Text) : Nat := s.foldl (fun acc c => acc * 10 + (c.toNat - 48)) 0

/-- std `from_str_radix(10)` on the digits after the sign: at least one digit, ASCII digits only. std, used at core/src/format/gcmd.rs 52-63,
core/src/format/tgf.rs 36-40, command/src/arg_utils.rs 22. -/
def parseDigits (s : Text) : Option Nat :=
  if !s.isEmpty && s.all isAsciiDigit then some (digitsVal s) else none

/-- std `from_str_radix`: an optional leading `+` is removed. std, used at core/src/format/gcmd.rs 52-63, core/src/format/tgf.rs 36-40,
command/src/arg_utils.rs 22. -/
def stripPlus : Text → Text
  | '+' :: r => r
  | s => s

/-- std `<u64 as FromStr>::from_str`: an optional `+`, then digits, value below 2^64. Overflow is tested on the final value instead of
after each digit, which is equivalent because the value only grows. std, used at core/src/format/gcmd.rs 52-63, core/src/format/tgf.rs 36-40,
command/src/arg_utils.rs 22. -/
def parseU64 (s : Text) : Option UInt64 :=
  match parseDigits (stripPlus s) with
  | some n => if n < 2 ^ 64 then some (UInt64.ofNat n) else none
  | none => none

/-- std `<usize as FromStr>::from_str` on a 64-bit target. Used at command/src/bin/gc-cycle.rs 182, 204-212, gc-csp.rs 172-182, gc-random.rs 71-74. -/
def parseUsize (s : Text) : Option Nat := (parseU64 s).map UInt64.toNat

/-- std `<i64 as FromStr>::from_str`: an optional `+` or `-`, then digits, value in the range of `i64`. Used at command/src/bin/gc-cycle.rs
216-224, gc-csp.rs 187-197. -/
def parseI64 (s : Text) : Option Int :=
  match s with
  | '-' :: r =>
    match parseDigits r with
    | some n => if n ≤ 2 ^ 63 then some (-(n : Int)) else none
    | none => none
  | s =>
    match parseDigits (stripPlus s) with
    | some n => if n < 2 ^ 63 then some (n : Int) else none
    | none => none

/-- std `str::trim`. Used at core/src/format/gcmd.rs 71, core/src/format/tgf.rs 48, command/src/arg_utils.rs 48. -/
def trim (s : Text) : Text := ((s.dropWhile isWhite).reverse.dropWhile isWhite).reverse

/-- std `BufRead::lines` removes a `\r` in front of the removed `\n`. Used at core/src/format/utils.rs 41. -/
def stripCr (s : Text) : Text := if s.getLast? = some '\r' then s.dropLast else s

/-- std `BufRead::lines`, `cur` is the part of the current line that was already read. Used at core/src/format/utils.rs 41. -/
def linesAux (cur : Text) : Text → List Text
  | [] => if cur.isEmpty then [] else [cur]
  | c :: cs => if c = '\n' then stripCr cur :: linesAux [] cs else linesAux (cur ++ [c]) cs

/-- std `BufRead::lines`. Simplification: the file is valid UTF-8; see `Verif/Model/Bytes.lean` for files that are not. Used at
core/src/format/utils.rs 41. -/
def lines (s : Text) : List Text := linesAux [] s

end Text
end GC
