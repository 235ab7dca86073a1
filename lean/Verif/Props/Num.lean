/-
C135: numbers are read and written exactly.
-/
import Verif.Proofs.Num
import Verif.Spec.Announce
import Verif.Proofs.Main
namespace GC
open Text Num Main

/-- A text is read as an unsigned number exactly if it is a numeral, perhaps after `+`, of a number below 2^64; and then as that number. The digits are multiplied
and added in 64 bits: for up to 16 bytes without a check. -/
theorem C135_unsigned (s : Text) (i : Int) : u64FromStr s = some i ↔ ∃ n : Nat, i = n ∧ ArgNat s n := by
  rw [u64_eq, Option.map_eq_some_iff]
  constructor
  · rintro ⟨x, hx, rfl⟩
    exact ⟨x.toNat, rfl, parseU64_iff.1 hx⟩
  · rintro ⟨n, rfl, hn⟩
    have hlt : n < 2 ^ 64 := by obtain ⟨_, _, _, h⟩ := hn; exact h
    have e : (UInt64.ofNat n).toNat = n := by rw [UInt64.toNat_ofNat']; exact Nat.mod_eq_of_lt hlt
    exact ⟨UInt64.ofNat n, parseU64_iff.2 (by rw [e]; exact hn), by rw [e]⟩

/-- A text is read as a signed number exactly if it is such a literal. -/
theorem C135_signed (s : Text) (i : Int) : i64FromStr s = some i ↔ ArgInt s i := by
  rw [i64_eq]; exact parseI64_iff

/-- A number is written in decimal notation, without zeros before it: whatever its size. -/
theorem C135_written (n : Nat) : Decimal (display n) n := by
  rw [display_dec]
  refine ⟨numeral_showFuel n n (lt_pow n), fun h => ?_⟩
  have := showFuel_head n n (lt_pow n) h
  subst this
  rfl

/-- A signed number is written with `-` if it is negative. -/
theorem C135_written_signed (i : Int) : DecimalInt (displayInt i) i := by
  unfold DecimalInt displayInt
  by_cases h : 0 ≤ i
  · rw [if_pos h]
    have e : i.natAbs = i.toNat := by omega
    exact .inl ⟨h, e ▸ C135_written i.natAbs⟩
  · rw [if_neg h]
    have e : i.natAbs = (-i).toNat := by omega
    exact .inr ⟨by omega, _, rfl, e ▸ C135_written i.natAbs⟩

/-- What is written is read back. -/
theorem C135_round_trip {n : Nat} (h : n < 2 ^ 64) : u64FromStr (display n) = some (n : Int) :=
  (C135_unsigned _ _).2 ⟨n, rfl, display n, .inl rfl, (C135_written n).1, h⟩

/-- What is written is read back, for signed numbers. -/
theorem C135_round_trip_signed {i : Int} (h : -2 ^ 63 ≤ i ∧ i < 2 ^ 63) : i64FromStr (displayInt i) = some i := by
  rw [C135_signed]
  unfold displayInt
  by_cases h0 : 0 ≤ i
  · rw [if_pos h0]
    exact .inl ⟨_, i.natAbs, .inl rfl, (C135_written _).1, by omega, by omega⟩
  · rw [if_neg h0]
    exact .inr ⟨_, i.natAbs, rfl, (C135_written _).1, by omega, by omega⟩

/-- The conversions used in the rest of the model are these. -/
theorem C135_model (s : Text) (x : UInt64) (i : Int) (h : -2 ^ 63 ≤ i ∧ i < 2 ^ 63) :
    u64FromStr s = (parseU64 s).map (fun x => (x.toNat : Int)) ∧ u64FromStr s = (parseUsize s).map (fun n => (n : Int)) ∧ i64FromStr s = parseI64 s ∧
      display x.toNat = showU64 x ∧ displayInt i = showInt i := by
  have hp : (2 : Nat) ^ 64 < 10 ^ (19 + 1) := by decide
  refine ⟨u64_eq s, ?_, i64_eq s, ?_, ?_⟩
  · rw [u64_eq]
    unfold parseUsize
    cases parseU64 s <;> rfl
  · rw [display_dec]
    exact (dec_eq (f := 19) (by have := x.toNat_lt; omega)).symm
  · have e : showFuel 20 i.natAbs = display i.natAbs := by
      rw [display_dec]
      exact dec_eq (f := 19) (by omega)
    unfold displayInt showInt
    rw [e]
    by_cases h0 : 0 ≤ i
    · rw [if_pos h0, if_neg (by omega)]
    · rw [if_neg h0, if_pos (by omega)]

/-! ### Cases -/

-- C135_unsigned: the largest number, one more; a sign; zeros before; sixteen and seventeen bytes.
example : u64FromStr "18446744073709551615".toList = some 18446744073709551615 ∧ u64FromStr "18446744073709551616".toList = none ∧
    u64FromStr "+7".toList = some 7 ∧ u64FromStr "-7".toList = none ∧ u64FromStr "+".toList = none ∧ u64FromStr "".toList = none ∧
    u64FromStr "0000000000000000000000042".toList = some 42 ∧ u64FromStr "9999999999999999".toList = some 9999999999999999 ∧
    u64FromStr "99999999999999999".toList = some 99999999999999999 ∧ u64FromStr "4²".toList = none ∧ u64FromStr "١".toList = none := by decide +kernel

example : ∃ n : Nat, (18446744073709551615 : Int) = n ∧ ArgNat "+18446744073709551615".toList n :=
  (C135_unsigned _ _).1 (by decide +kernel)

-- C135_signed: both ends.
example : i64FromStr "-9223372036854775808".toList = some (-9223372036854775808) ∧ i64FromStr "-9223372036854775809".toList = none ∧
    i64FromStr "9223372036854775807".toList = some 9223372036854775807 ∧ i64FromStr "9223372036854775808".toList = none ∧
    i64FromStr "-".toList = none ∧ i64FromStr "+-1".toList = none ∧ i64FromStr "-0".toList = some 0 := by decide +kernel

example : ArgInt "-9223372036854775808".toList (-9223372036854775808) := (C135_signed _ _).1 (by decide +kernel)

-- C135_written, C135_written_signed
example : display 0 = "0".toList ∧ display 10 = "10".toList ∧ display 107 = "107".toList ∧ display 10000 = "10000".toList ∧ display 1020304 = "1020304".toList ∧
    display 18446744073709551615 = "18446744073709551615".toList ∧ displayInt (-9223372036854775808) = "-9223372036854775808".toList := by decide +kernel
example : Decimal "1020304".toList 1020304 := (by decide +kernel : display 1020304 = "1020304".toList) ▸ C135_written 1020304
example : DecimalInt "-100".toList (-100) := (by decide +kernel : displayInt (-100) = "-100".toList) ▸ C135_written_signed (-100)

-- C135_round_trip, C135_round_trip_signed: the ends of the types.
example : u64FromStr (display (2 ^ 64 - 1)) = some (2 ^ 64 - 1) := C135_round_trip (n := 2 ^ 64 - 1) (by decide)
example : i64FromStr (displayInt (-2 ^ 63)) = some (-2 ^ 63) := C135_round_trip_signed (by decide)

-- C135_model
example : display (18446744073709551615 : UInt64).toNat = showU64 18446744073709551615 ∧ displayInt (-2 ^ 63) = showInt (-2 ^ 63) :=
  (C135_model [] 18446744073709551615 (-2 ^ 63) (by decide)).2.2.2

end GC
