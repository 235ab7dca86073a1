/-
Lemmas for C135: numbers.
-/
import Verif.Model.Num
import Verif.Proofs.Args
namespace GC
namespace Num
open Text Bytes

theorem toDigit_le {b : UInt8} {d : Nat} (h : toDigit b = some d) : d ≤ 9 := by
  unfold toDigit at h
  split at h
  · cases h; omega
  · cases h

theorem toDigit_ascii {c : Char} (h : isAsciiDigit c = true) : encodeChar c = [UInt8.ofNat c.toNat] ∧ toDigit (UInt8.ofNat c.toNat) = some (c.toNat - 48) := by
  have h' : 48 ≤ c.toNat ∧ c.toNat ≤ 57 := by simpa [isAsciiDigit] using h
  have e : (UInt8.ofNat c.toNat).toNat = c.toNat := by rw [UInt8.toNat_ofNat']; omega
  refine ⟨?_, ?_⟩
  · unfold encodeChar
    simp only
    rw [if_pos (by omega)]
  · unfold toDigit
    rw [e, if_pos h']

/-- A character that is no digit begins with a byte that is none. -/
theorem toDigit_other {c : Char} (h : isAsciiDigit c = false) : ∃ b bs, encodeChar c = b :: bs ∧ toDigit b = none ∧ (bs = [] → b = UInt8.ofNat c.toNat ∧ c.toNat < 128) ∧ (128 ≤ c.toNat → 192 ≤ b.toNat) := by
  have h' : ¬ (48 ≤ c.toNat ∧ c.toNat ≤ 57) := by
    intro hc
    have : isAsciiDigit c = true := by simpa [isAsciiDigit] using hc
    rw [h] at this; cases this
  have hlt : c.toNat < 1114112 := by
    have := c.valid
    have e : c.toNat = c.val.toNat := rfl
    rw [e]
    unfold UInt32.isValidChar Nat.isValidChar at this
    omega
  have hbig : ∀ n : Nat, 192 ≤ n → n < 256 → toDigit (UInt8.ofNat n) = none ∧ 192 ≤ (UInt8.ofNat n).toNat := by
    intro n h1 h2
    have e : (UInt8.ofNat n).toNat = n := by rw [UInt8.toNat_ofNat']; omega
    unfold toDigit
    rw [e, if_neg (by omega)]
    exact ⟨rfl, h1⟩
  unfold encodeChar
  simp only
  split
  · refine ⟨_, _, rfl, ?_, fun _ => ⟨rfl, by omega⟩, fun h => by omega⟩
    have e : (UInt8.ofNat c.toNat).toNat = c.toNat := by rw [UInt8.toNat_ofNat']; omega
    unfold toDigit
    rw [e, if_neg h']
  · split
    · have := hbig (0xC0 + c.toNat / 64) (by omega) (by omega)
      exact ⟨_, _, rfl, this.1, by simp, fun _ => this.2⟩
    · split
      · have := hbig (0xE0 + c.toNat / 4096) (by omega) (by omega)
        exact ⟨_, _, rfl, this.1, by simp, fun _ => this.2⟩
      · have := hbig (0xF0 + c.toNat / 262144) (by omega) (by omega)
        exact ⟨_, _, rfl, this.1, by simp, fun _ => this.2⟩

theorem encode_cons (c : Char) (s : Text) : encode (c :: s) = encodeChar c ++ encode s := by simp [encode]

/-- The value after more digits. -/
def more (n : Nat) (s : Text) : Nat := s.foldl (fun acc c => acc * 10 + (c.toNat - 48)) n

theorem le_more (n : Nat) (s : Text) : n ≤ more n s := by
  induction s generalizing n with
  | nil => exact Nat.le_refl _
  | cons c s ih => exact Nat.le_trans (by omega) (ih (n * 10 + (c.toNat - 48)))

/-- The number as it is held while digits are added or subtracted. -/
def signed (neg : Bool) (n : Nat) : Int := if neg then -(n : Int) else n

theorem checked_signed {lo hi : Int} (hlo : lo ≤ 0) (hhi : 0 ≤ hi) (neg : Bool) (n : Nat) :
    checked lo hi (signed neg n) = if (n : Int) ≤ (if neg then -lo else hi) then some (signed neg n) else none := by
  unfold checked signed
  cases neg
  · simp only [Bool.false_eq_true, if_false]
    by_cases h : (n : Int) ≤ hi
    · rw [if_pos h, if_pos ⟨by omega, h⟩]
    · rw [if_neg h, if_neg (by omega)]
  · simp only [if_true]
    by_cases h : (n : Int) ≤ -lo
    · rw [if_pos h, if_pos ⟨by omega, by omega⟩]
    · rw [if_neg h, if_neg (by omega)]

theorem signed_step (neg : Bool) (n d : Nat) : (if neg then signed neg n * 10 - d else signed neg n * 10 + d) = signed neg (n * 10 + d) := by
  unfold signed
  cases neg <;> simp <;> omega

theorem signed_mul (neg : Bool) (n : Nat) : signed neg n * 10 = signed neg (n * 10) := by
  unfold signed
  cases neg
  · simp
  · simp only [if_true]; push_cast; omega

theorem signed_add (neg : Bool) (n d : Nat) : (if neg then signed neg n - d else signed neg n + d) = signed neg (n + d) := by
  unfold signed
  cases neg <;> simp <;> omega

theorem slow_eq {lo hi : Int} (hlo : lo ≤ 0) (hhi : 0 ≤ hi) (neg : Bool) (s : Text) (n : Nat) (hn : (n : Int) ≤ if neg then -lo else hi) :
    slow lo hi neg (signed neg n) (encode s) =
      if s.all isAsciiDigit = true ∧ (more n s : Int) ≤ (if neg then -lo else hi) then some (signed neg (more n s)) else none := by
  induction s generalizing n with
  | nil => simp [encode, slow, more, hn]
  | cons c s ih =>
    rw [encode_cons]
    by_cases hc : isAsciiDigit c = true
    · obtain ⟨e1, e2⟩ := toDigit_ascii hc
      rw [e1, List.singleton_append, slow, e2]
      simp only
      rw [signed_mul, checked_signed hlo hhi]
      have hm : more n (c :: s) = more (n * 10 + (c.toNat - 48)) s := rfl
      have hle := le_more (n * 10 + (c.toNat - 48)) s
      by_cases h1 : ((n * 10 : Nat) : Int) ≤ if neg then -lo else hi
      · rw [if_pos h1]
        simp only
        rw [signed_add, checked_signed hlo hhi]
        by_cases h2 : ((n * 10 + (c.toNat - 48) : Nat) : Int) ≤ if neg then -lo else hi
        · rw [if_pos h2]
          simp only
          rw [ih _ h2, hm, List.all_cons, hc, Bool.true_and]
        · rw [if_neg h2, hm, if_neg (fun h => h2 (by have := h.2; omega))]
      · rw [if_neg h1, hm, if_neg (fun h => h1 (by have := h.2; omega))]
    · obtain ⟨b, bs, e1, e2, _⟩ := toDigit_other (Bool.eq_false_iff.2 hc)
      rw [e1, List.cons_append, slow, e2, if_neg]
      rintro ⟨h, _⟩
      rw [List.all_cons, Bool.and_eq_true] at h
      exact hc h.1

theorem wrap_id {lo x : Int} (h1 : lo ≤ x) (h2 : x < lo + 2 ^ 64) : wrap lo x = x := by
  unfold wrap
  rw [Int.emod_eq_of_lt (by omega) (by omega)]
  omega

/-- Few digits do not overflow. -/
theorem fast_eq {lo hi : Int} (neg : Bool) (hlo : lo ≤ 0) (hhi : hi < lo + 2 ^ 64) (hbig : (10 ^ 16 : Int) ≤ (if neg then -lo else hi)) (hhi0 : (0 : Int) ≤ hi)
    (hneg : neg = true → (10 ^ 16 : Int) ≤ -lo) (bs : Raw) (n k : Nat) (hn : n < 10 ^ k) (hk : k + bs.length ≤ 16) :
    fast lo neg (signed neg n) bs = slow lo hi neg (signed neg n) bs := by
  induction bs generalizing n k with
  | nil => rfl
  | cons b bs ih =>
    rw [fast, slow]
    cases hd : toDigit b with
    | none => rfl
    | some d =>
      have hd9 := toDigit_le hd
      simp only
      have hpow : (10 : Nat) ^ (k + 1) ≤ 10 ^ 16 := Nat.pow_le_pow_right (by omega) (by simp at hk; omega)
      have hn' : n * 10 + d < 10 ^ (k + 1) := by rw [Nat.pow_succ]; omega
      have hb : ∀ m : Nat, m < 10 ^ 16 → checked lo hi (signed neg m) = some (signed neg m) ∧ wrap lo (signed neg m) = signed neg m := by
        intro m hm
        have hm' : (m : Int) < 10 ^ 16 := by exact_mod_cast hm
        rw [checked_signed hlo hhi0, if_pos (by omega)]
        refine ⟨rfl, ?_⟩
        unfold signed
        cases neg
        · simp only [Bool.false_eq_true, if_false] at hbig ⊢
          exact wrap_id (by omega) (by omega)
        · simp only [if_true] at hbig ⊢
          exact wrap_id (by omega) (by omega)
      rw [signed_mul, (hb (n * 10) (by omega)).1, (hb (n * 10) (by omega)).2]
      simp only
      rw [signed_add, (hb (n * 10 + d) (by omega)).1, (hb (n * 10 + d) (by omega)).2]
      simp only
      exact ih _ (k + 1) hn' (by simp at hk; omega)

theorem digits_eq {lo hi : Int} {few : Nat} (neg : Bool) (hlo : lo ≤ 0) (hhi : hi < lo + 2 ^ 64) (hbig : (10 ^ 16 : Int) ≤ (if neg then -lo else hi))
    (hhi0 : (0 : Int) ≤ hi) (hfew : few ≤ 16) (s : Text) :
    digits lo hi few neg (encode s) =
      if s.all isAsciiDigit = true ∧ (digitsVal s : Int) ≤ (if neg then -lo else hi) then some (signed neg (digitsVal s)) else none := by
  have h0 : (0 : Int) = signed neg 0 := by unfold signed; cases neg <;> rfl
  have hs := slow_eq hlo hhi0 neg s 0 (by cases neg <;> simp <;> omega)
  unfold digits
  split
  · rw [h0, fast_eq neg hlo hhi hbig hhi0 (fun h => by subst h; simpa using hbig) (encode s) 0 0 (by simp) (by omega), hs]
    rfl
  · rw [h0, hs]; rfl

/-! ### Signs -/

theorem encodeChar_plus : encodeChar '+' = [43] := by decide
theorem encodeChar_minus : encodeChar '-' = [45] := by decide

theorem encodeChar_ne (c : Char) : encodeChar c ≠ [] := by
  unfold encodeChar
  simp only
  split
  · simp
  · split
    · simp
    · split <;> simp

theorem encode_eq_nil {s : Text} (h : encode s = []) : s = [] := by
  cases s with
  | nil => rfl
  | cons c s =>
    rw [encode_cons, List.append_eq_nil_iff] at h
    exact absurd h.1 (encodeChar_ne c)

/-- The first byte of a character is a sign only if the character is that sign. -/
theorem encodeChar_head {c : Char} {b : UInt8} {bs : Raw} (h : encodeChar c = b :: bs) : (b = 43 → c = '+') ∧ (b = 45 → c = '-') := by
  have key : ∀ n : Nat, n < 128 → b.toNat = n → c.toNat = n := by
    intro n hn hb
    by_cases hd : isAsciiDigit c = true
    · have := (toDigit_ascii hd).1
      rw [h] at this
      cases this
      have hc : c.toNat ≤ 57 := by
        have : 48 ≤ c.toNat ∧ c.toNat ≤ 57 := by simpa [isAsciiDigit] using hd
        exact this.2
      rw [UInt8.toNat_ofNat'] at hb
      omega
    · obtain ⟨b', bs', e1, _, e3, e4⟩ := toDigit_other (Bool.eq_false_iff.2 hd)
      rw [h] at e1
      cases e1
      have hc : c.toNat < 128 := by
        by_contra hc
        have := e4 (by omega)
        omega
      unfold encodeChar at h
      simp only at h
      rw [if_pos hc] at h
      cases h
      rw [UInt8.toNat_ofNat'] at hb
      omega
  refine ⟨fun hb => ?_, fun hb => ?_⟩
  · have : c.toNat = '+'.toNat := key 43 (by decide) (by rw [hb]; rfl)
    exact Char.toNat_inj.1 this
  · have : c.toNat = '-'.toNat := key 45 (by decide) (by rw [hb]; rfl)
    exact Char.toNat_inj.1 this

theorem parseDigits_eq' (s : Text) : parseDigits s = if s ≠ [] ∧ s.all isAsciiDigit = true then some (digitsVal s) else none := by
  unfold parseDigits
  cases s <;> simp

theorem parse_all {s : Text} (hs : s ≠ []) (ha : s.all isAsciiDigit = true) : parseDigits s = some (digitsVal s) := by
  rw [parseDigits_eq', if_pos ⟨hs, ha⟩]

theorem parse_not {s : Text} (ha : ¬ s.all isAsciiDigit = true) : parseDigits s = none := by
  rw [parseDigits_eq', if_neg (fun h => ha h.2)]

theorem u64_eq (s : Text) : u64FromStr s = (parseU64 s).map fun x => (x.toNat : Int) := by
  have hd : ∀ s : Text, s ≠ [] → digits 0 (2 ^ 64 - 1) 16 false (encode s) =
      (match parseDigits s with
       | some n => if n < 2 ^ 64 then some (UInt64.ofNat n) else none
       | none => none).map fun x : UInt64 => (x.toNat : Int) := by
    intro s hs
    rw [digits_eq false (by omega) (by omega) (by decide) (by decide) (by omega)]
    by_cases ha : s.all isAsciiDigit = true
    · rw [parse_all hs ha]
      by_cases hv : digitsVal s < 2 ^ 64
      · rw [if_pos ⟨ha, by simp only [Bool.false_eq_true, if_false]; omega⟩]
        simp only
        rw [if_pos hv, Option.map_some, UInt64.toNat_ofNat_of_lt' (by simpa using hv)]
        rfl
      · rw [if_neg (fun h => hv (by have := h.2; simp only [Bool.false_eq_true, if_false] at this; omega))]
        simp only
        rw [if_neg hv]
        rfl
    · rw [parse_not ha, if_neg (fun h => ha h.1)]
      rfl
  unfold u64FromStr parseU64
  cases s with
  | nil => rfl
  | cons c s =>
    by_cases hp : c = '+'
    · subst hp
      rw [encode_cons, encodeChar_plus, List.singleton_append, fromStrRadix]
      by_cases hs : s = []
      · subst hs; rfl
      · rw [if_neg (fun h => hs (encode_eq_nil h.2)), if_pos rfl, hd s hs]
        rfl
    · have hst : stripPlus (c :: s) = c :: s := by
        unfold stripPlus
        split
        · rename_i h; cases h; exact absurd rfl hp
        · rfl
      rw [hst]
      have hds := hd (c :: s) (by simp)
      refine Eq.trans ?_ hds
      obtain ⟨b, bs, hb⟩ : ∃ b bs, encodeChar c = b :: bs := List.exists_cons_of_ne_nil (encodeChar_ne c)
      have hb43 : b ≠ 43 := fun h => hp ((encodeChar_head hb).1 h)
      rw [encode_cons, hb, List.cons_append, fromStrRadix]
      by_cases hm : b = 45 ∧ bs ++ encode s = []
      · rw [if_pos ⟨.inr hm.1, hm.2⟩, hm.1, hm.2]
        decide
      · rw [if_neg (fun h => hm ⟨h.1.resolve_left hb43, h.2⟩), if_neg hb43, if_neg (by simp)]

theorem i64_eq (s : Text) : i64FromStr s = parseI64 s := by
  have hpos : ∀ s : Text, s ≠ [] → digits (-2 ^ 63) (2 ^ 63 - 1) 15 false (encode s) =
      match parseDigits s with
       | some n => if n < 2 ^ 63 then some (n : Int) else none
       | none => none := by
    intro s hs
    rw [digits_eq false (by decide) (by decide) (by decide) (by decide) (by omega)]
    by_cases ha : s.all isAsciiDigit = true
    · rw [parse_all hs ha]
      by_cases hv : digitsVal s < 2 ^ 63
      · rw [if_pos ⟨ha, by simp only [Bool.false_eq_true, if_false]; omega⟩]
        simp only
        rw [if_pos hv]
        rfl
      · rw [if_neg (fun h => hv (by have := h.2; simp only [Bool.false_eq_true, if_false] at this; omega))]
        simp only
        rw [if_neg hv]
    · rw [parse_not ha, if_neg (fun h => ha h.1)]
  have hneg : ∀ s : Text, s ≠ [] → digits (-2 ^ 63) (2 ^ 63 - 1) 15 true (encode s) =
      match parseDigits s with
       | some n => if n ≤ 2 ^ 63 then some (-(n : Int)) else none
       | none => none := by
    intro s hs
    rw [digits_eq true (by decide) (by decide) (by decide) (by decide) (by omega)]
    by_cases ha : s.all isAsciiDigit = true
    · rw [parse_all hs ha]
      by_cases hv : digitsVal s ≤ 2 ^ 63
      · rw [if_pos ⟨ha, by simp only [if_true]; omega⟩]
        simp only
        rw [if_pos hv]
        rfl
      · rw [if_neg (fun h => hv (by have := h.2; simp only [if_true] at this; omega))]
        simp only
        rw [if_neg hv]
    · rw [parse_not ha, if_neg (fun h => ha h.1)]
  unfold i64FromStr
  cases s with
  | nil => rfl
  | cons c s =>
    by_cases hm : c = '-'
    · subst hm
      rw [encode_cons, encodeChar_minus, List.singleton_append, fromStrRadix]
      show _ = match parseDigits s with
       | some n => if n ≤ 2 ^ 63 then some (-(n : Int)) else none
       | none => none
      by_cases hs : s = []
      · subst hs; rfl
      · rw [if_neg (fun h => hs (encode_eq_nil h.2)), if_neg (by decide), if_pos ⟨rfl, rfl⟩, hneg s hs]
    · have hr : parseI64 (c :: s) = match parseDigits (stripPlus (c :: s)) with
       | some n => if n < 2 ^ 63 then some (n : Int) else none
       | none => none := by
        unfold parseI64
        split
        · rename_i h; cases h; exact absurd rfl hm
        · rfl
      rw [hr]
      by_cases hp : c = '+'
      · subst hp
        rw [encode_cons, encodeChar_plus, List.singleton_append, fromStrRadix]
        by_cases hs : s = []
        · subst hs; rfl
        · rw [if_neg (fun h => hs (encode_eq_nil h.2)), if_pos rfl, hpos s hs]
          rfl
      · have hst : stripPlus (c :: s) = c :: s := by
          unfold stripPlus
          split
          · rename_i h; cases h; exact absurd rfl hp
          · rfl
        rw [hst]
        have hds := hpos (c :: s) (by simp)
        refine Eq.trans ?_ hds
        obtain ⟨b, bs, hb⟩ : ∃ b bs, encodeChar c = b :: bs := List.exists_cons_of_ne_nil (encodeChar_ne c)
        have hb43 : b ≠ 43 := fun h => hp ((encodeChar_head hb).1 h)
        have hb45 : b ≠ 45 := fun h => hm ((encodeChar_head hb).2 h)
        rw [encode_cons, hb, List.cons_append, fromStrRadix, if_neg (fun h => h.1.elim hb43 hb45), if_neg hb43, if_neg (fun h => hb45 h.1)]

/-! ### Display -/

theorem pair_eq {k : Nat} (h : k < 100) : pair k = [digitChar (k / 10), digitChar (k % 10)] := by
  have : ∀ k < 100, pair k = [digitChar (k / 10), digitChar (k % 10)] := by decide +kernel
  exact this k h

theorem show_succ (f n : Nat) (h : 10 ≤ n) : showFuel (f + 1) n = showFuel f (n / 10) ++ [digitChar (n % 10)] := by
  rw [showFuel, if_neg (by omega)]

theorem show_small (f n : Nat) (h : n < 10) : showFuel (f + 1) n = [digitChar n] := by
  rw [showFuel, if_pos h]

/-- Enough fuel is enough. -/
theorem show_fuel (f g n : Nat) (hf : n < 10 ^ (f + 1)) (hg : n < 10 ^ (g + 1)) : showFuel (f + 1) n = showFuel (g + 1) n := by
  induction f generalizing g n with
  | zero => rw [show_small _ _ (by simpa using hf), show_small _ _ (by simpa using hf)]
  | succ f ih =>
    by_cases h : n < 10
    · rw [show_small _ _ h, show_small _ _ h]
    · cases g with
      | zero => simp at hg; omega
      | succ g =>
        rw [show_succ _ _ (by omega), show_succ (g + 1) _ (by omega), ih g (n / 10) (by rw [Nat.pow_succ] at hf; omega) (by rw [Nat.pow_succ] at hg; omega)]

/-- The decimal digits of a number. -/
def dec (n : Nat) : Text := showFuel (n + 1) n

theorem lt_pow (n : Nat) : n < 10 ^ (n + 1) := by
  have := Nat.lt_pow_self (n := n + 1) (a := 10) (by omega)
  omega

theorem dec_eq {f n : Nat} (h : n < 10 ^ (f + 1)) : showFuel (f + 1) n = dec n := show_fuel f n n h (lt_pow n)

theorem dec_small {n : Nat} (h : n < 10) : dec n = [digitChar n] := show_small _ _ h

theorem dec_step {n : Nat} (h : 10 ≤ n) : dec n = dec (n / 10) ++ [digitChar (n % 10)] := by
  unfold dec
  rw [show_succ _ _ h]
  obtain ⟨m, rfl⟩ : ∃ m, n = m + 1 := ⟨n - 1, by omega⟩
  rw [dec_eq (by have := lt_pow (m + 1); rw [Nat.pow_succ] at this; omega)]
  rfl

theorem dec_two {n : Nat} (h : 100 ≤ n) : dec n = dec (n / 100) ++ pair (n % 100) := by
  rw [dec_step (by omega), dec_step (n := n / 10) (by omega), pair_eq (Nat.mod_lt _ (by omega)), List.append_assoc]
  have e1 : n / 10 / 10 = n / 100 := by omega
  have e2 : n / 10 % 10 = n % 100 / 10 := by omega
  have e3 : n % 10 = n % 100 % 10 := by omega
  rw [e1, e2, e3]
  rfl

theorem dec_four {n : Nat} (h : 10000 ≤ n) : dec n = dec (n / 10000) ++ (pair (n % 10000 / 100) ++ pair (n % 10000 % 100)) := by
  rw [dec_two (by omega), dec_two (n := n / 100) (by omega), List.append_assoc]
  have e1 : n / 100 / 100 = n / 10000 := by omega
  have e2 : n / 100 % 100 = n % 10000 / 100 := by omega
  have e3 : n % 100 = n % 10000 % 100 := by omega
  rw [e1, e2, e3]

theorem byFour_eq (n : Nat) (acc : Text) : (byFour n acc).1 < 10000 ∧ dec (byFour n acc).1 ++ (byFour n acc).2 = dec n ++ acc := by
  induction n using Nat.strongRecOn generalizing acc with
  | _ n ih =>
    unfold byFour
    split
    · exact ⟨by assumption, rfl⟩
    · rename_i h
      obtain ⟨h1, h2⟩ := ih (n / 10000) (by omega) (pair (n % 10000 / 100) ++ pair (n % 10000 % 100) ++ acc)
      refine ⟨h1, ?_⟩
      rw [h2, dec_four (n := n) (by omega)]
      simp

theorem display_dec (n : Nat) : display n = dec n := by
  obtain ⟨h1, h2⟩ := byFour_eq n []
  rw [List.append_nil] at h2
  rw [← h2]
  unfold display
  generalize byFour n [] = r at h1
  obtain ⟨m, acc⟩ := r
  simp only at h1 ⊢
  have htail : ∀ m acc, m < 100 → (if m < 10 then digitChar m :: acc else pair m ++ acc) = dec m ++ acc := by
    intro m acc hm
    split
    · rw [dec_small (by assumption)]; rfl
    · rw [dec_step (by omega), dec_small (by omega), pair_eq hm]; rfl
  by_cases h : 100 ≤ m
  · rw [if_pos h, dec_two h, List.append_assoc, ← htail _ _ (by omega)]
  · rw [if_neg h, ← htail _ _ (by omega)]

end Num
end GC
