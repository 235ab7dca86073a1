/-
Model of std's conversions between integers and text, which core/src/format/gcmd.rs 51-63 and 105-113, command/src/arg_utils.rs 21-23 and the binaries
use through `parse` and `format!`: digit by digit, with the arithmetic of the machine. `Verif/Model/Text.lean` has the results.

Simplification: the kinds of errors are not kept (no caller looks at them). The buffer of `Display` is a list, which cannot be too short.
-/
import Verif.Model.Bytes
import Verif.Model.Main
namespace GC
namespace Num
open Text Bytes

/-- std `(c as char).to_digit(10)`. std, used at core/src/format/gcmd.rs 52-63, core/src/format/tgf.rs 36-40, command/src/arg_utils.rs 22,
command/src/bin/gc-add.rs 91-126. -/
def toDigit (b : UInt8) : Option Nat := if 48 ≤ b.toNat ∧ b.toNat ≤ 57 then some (b.toNat - 48) else none

/-- std `checked_mul`, `checked_add`, `checked_sub`: the result, if the type has it. std, used at core/src/format/gcmd.rs 52-63,
core/src/format/tgf.rs 36-40, command/src/arg_utils.rs 22, command/src/bin/gc-add.rs 91-126. -/
def checked (lo hi x : Int) : Option Int := if lo ≤ x ∧ x ≤ hi then some x else none

/-- Arithmetic of a 64-bit type without checks. std, used at core/src/format/gcmd.rs 52-63, core/src/format/tgf.rs 36-40, command/src/arg_utils.rs
22, command/src/bin/gc-add.rs 91-126. -/
def wrap (lo x : Int) : Int := lo + (x - lo) % 2 ^ 64

/-- std `from_str_radix`, the loop with checks; `neg` if digits are subtracted. std, used at core/src/format/gcmd.rs 52-63, core/src/format/tgf.rs
36-40, command/src/arg_utils.rs 22, command/src/bin/gc-add.rs 91-126. -/
def slow (lo hi : Int) (neg : Bool) : Int → Raw → Option Int
  | r, [] => some r
  | r, b :: bs =>
    match toDigit b with
    | none => none
    | some d =>
      match checked lo hi (r * 10) with
      | none => none
      | some m =>
        match checked lo hi (if neg then m - d else m + d) with
        | none => none
        | some r => slow lo hi neg r bs

/-- std `from_str_radix`, the loop without checks. std, used at core/src/format/gcmd.rs 52-63, core/src/format/tgf.rs 36-40,
command/src/arg_utils.rs 22, command/src/bin/gc-add.rs 91-126. -/
def fast (lo : Int) (neg : Bool) : Int → Raw → Option Int
  | r, [] => some r
  | r, b :: bs =>
    match toDigit b with
    | none => none
    | some d => fast lo neg (wrap lo (if neg then wrap lo (r * 10) - d else wrap lo (r * 10) + d)) bs

/-- std `from_str_radix`: for few digits (`can_not_overflow`) the loop without checks. std, used at core/src/format/gcmd.rs 52-63,
core/src/format/tgf.rs 36-40, command/src/arg_utils.rs 22, command/src/bin/gc-add.rs 91-126. -/
def digits (lo hi : Int) (few : Nat) (neg : Bool) (bs : Raw) : Option Int :=
  if bs.length ≤ few then fast lo neg 0 bs else slow lo hi neg 0 bs

/-- std `from_str_radix(src, 10)`. A sign alone is refused; `-` is a sign for signed types only. std, used at core/src/format/gcmd.rs 52-63,
core/src/format/tgf.rs 36-40, command/src/arg_utils.rs 22, command/src/bin/gc-add.rs 91-126. -/
def fromStrRadix (lo hi : Int) (few : Nat) (signed : Bool) : Raw → Option Int
  | [] => none
  | b :: bs =>
    if (b = 43 ∨ b = 45) ∧ bs = [] then none
    else if b = 43 then digits lo hi few false bs
    else if b = 45 ∧ signed then digits lo hi few true bs
    else digits lo hi few false (b :: bs)

/-- std `<u64 as FromStr>::from_str` (and that of `usize` on a 64-bit target). std, used at core/src/format/gcmd.rs 52-63, core/src/format/tgf.rs
36-40, command/src/arg_utils.rs 22, command/src/bin/gc-add.rs 91-126. -/
def u64FromStr (s : Text) : Option Int := fromStrRadix 0 (2 ^ 64 - 1) 16 false (encode s)

/-- std `<i64 as FromStr>::from_str`. Used at command/src/bin/gc-cycle.rs 216-224, gc-csp.rs 187-197. -/
def i64FromStr (s : Text) : Option Int := fromStrRadix (-2 ^ 63) (2 ^ 63 - 1) 15 true (encode s)

/-- std `DEC_DIGITS_LUT`. std, used at core/src/format/gcmd.rs 105-113 and by the `println!` of the binaries, e.g. command/src/bin/gc-short-path.rs
62-68. -/
def lut : Text := "00010203040506070809101112131415161718192021222324252627282930313233343536373839404142434445464748495051525354555657585960616263646566676869707172737475767778798081828384858687888990919293949596979899".toList

/-- std, `Display` of integers: two digits from the table. std, used at core/src/format/gcmd.rs 105-113 and by the `println!` of the binaries, e.g.
command/src/bin/gc-short-path.rs 62-68. -/
def pair (k : Nat) : Text := (lut.drop (2 * k)).take 2

/-- std, `Display` of integers: four digits at a time, from the right. std, used at core/src/format/gcmd.rs 105-113 and by the `println!` of the
binaries, e.g. command/src/bin/gc-short-path.rs 62-68. -/
def byFour (n : Nat) (acc : Text) : Nat × Text :=
  if n < 10000 then (n, acc) else byFour (n / 10000) (pair (n % 10000 / 100) ++ pair (n % 10000 % 100) ++ acc)
termination_by n
decreasing_by omega

/-- std, `Display` of integers: the digits of the absolute value. std, used at core/src/format/gcmd.rs 105-113 and by the `println!` of the
binaries, e.g. command/src/bin/gc-short-path.rs 62-68. -/
def display (n : Nat) : Text :=
  let r := byFour n []
  let r := if 100 ≤ r.1 then (r.1 / 100, pair (r.1 % 100) ++ r.2) else r
  if r.1 < 10 then digitChar r.1 :: r.2 else pair r.1 ++ r.2

/-- std, `Display` of `i64`. std, used at core/src/format/gcmd.rs 105-113 and by the `println!` of the binaries, e.g.
command/src/bin/gc-short-path.rs 62-68. -/
def displayInt (i : Int) : Text := if 0 ≤ i then display i.natAbs else '-' :: display i.natAbs

end Num
end GC
