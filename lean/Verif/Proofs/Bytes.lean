/-
Lemmas about the encoding of text as bytes.
-/
import Verif.Model.Bytes
import Verif.Proofs.Format
namespace GC
namespace Bytes
open Text Format

theorem toNat_ofNat_lt {n : Nat} (h : n < 256) : (UInt8.ofNat n).toNat = n := by
  rw [UInt8.toNat_ofNat']; omega

theorem char_valid (c : Char) : c.toNat < 0xD800 ∨ (0xDFFF < c.toNat ∧ c.toNat < 0x110000) := c.valid

theorem ofNat_of_toNat {c : Char} {n : Nat} (h : n = c.toNat) : Char.ofNat n = c := by
  subst h; exact Char.ofNat_toNat c

theorem toNat_ofNat_char {n : Nat} (h : n < 0xD800 ∨ (0xDFFF < n ∧ n < 0x110000)) : (Char.ofNat n).toNat = n := by
  have hv : n.isValidChar := h
  unfold Char.ofNat
  rw [dif_pos hv]
  unfold Char.toNat Char.ofNatAux
  rfl

theorem ofNat_of_toNat8 {b : UInt8} {n : Nat} (h : n = b.toNat) : UInt8.ofNat n = b := by
  subst h; exact UInt8.ofNat_toNat

theorem decode_encodeChar (c : Char) (rest : Raw) : decode (encodeChar c ++ rest) = (decode rest).map (c :: ·) := by
  have hv := char_valid c
  unfold encodeChar
  dsimp only
  generalize hn : c.toNat = n at hv
  split
  · rename_i h
    simp only [List.cons_append, List.nil_append]
    rw [decode.eq_def (_ :: _)]
    dsimp only
    rw [toNat_ofNat_lt (by omega), if_pos h, ofNat_of_toNat hn.symm]
  · split
    · rename_i h1 h2
      simp only [List.cons_append, List.nil_append]
      have e0 : (UInt8.ofNat (0xC0 + n / 64)).toNat = 0xC0 + n / 64 := toNat_ofNat_lt (by omega)
      have e1 : (UInt8.ofNat (0x80 + n % 64)).toNat = 0x80 + n % 64 := toNat_ofNat_lt (by omega)
      have ht : two (UInt8.ofNat (0xC0 + n / 64)) (UInt8.ofNat (0x80 + n % 64)) = true := by
        unfold two cont; rw [e0, e1]; simp only [Bool.and_eq_true, decide_eq_true_eq]; omega
      rw [decode.eq_def (_ :: _)]
      dsimp only
      rw [if_neg (show ¬ _ < _ by rw [e0]; omega)]
      rw [if_pos ht, e0, e1, ofNat_of_toNat (c := c) (by omega)]
    · split
      · rename_i h1 h2 h3
        simp only [List.cons_append, List.nil_append]
        have e0 : (UInt8.ofNat (0xE0 + n / 4096)).toNat = 0xE0 + n / 4096 := toNat_ofNat_lt (by omega)
        have e1 : (UInt8.ofNat (0x80 + n / 64 % 64)).toNat = 0x80 + n / 64 % 64 := toNat_ofNat_lt (by omega)
        have e2 : (UInt8.ofNat (0x80 + n % 64)).toNat = 0x80 + n % 64 := toNat_ofNat_lt (by omega)
        have ht : ¬ two (UInt8.ofNat (0xE0 + n / 4096)) (UInt8.ofNat (0x80 + n / 64 % 64)) = true := by
          unfold two; rw [e0]; simp only [Bool.and_eq_true, decide_eq_true_eq]; omega
        have ht3 : three (UInt8.ofNat (0xE0 + n / 4096)) (UInt8.ofNat (0x80 + n / 64 % 64)) (UInt8.ofNat (0x80 + n % 64)) = true := by
          unfold three cont; rw [e0, e1, e2]
          simp only [Bool.and_eq_true, Bool.or_eq_true, decide_eq_true_eq, beq_iff_eq]; omega
        rw [decode.eq_def (_ :: _)]
        dsimp only
        rw [if_neg (show ¬ _ < _ by rw [e0]; omega)]
        rw [if_neg ht, if_pos ht3, e0, e1, e2, ofNat_of_toNat (c := c) (by omega)]
      · rename_i h1 h2 h3
        simp only [List.cons_append, List.nil_append]
        have e0 : (UInt8.ofNat (0xF0 + n / 262144)).toNat = 0xF0 + n / 262144 := toNat_ofNat_lt (by omega)
        have e1 : (UInt8.ofNat (0x80 + n / 4096 % 64)).toNat = 0x80 + n / 4096 % 64 := toNat_ofNat_lt (by omega)
        have e2 : (UInt8.ofNat (0x80 + n / 64 % 64)).toNat = 0x80 + n / 64 % 64 := toNat_ofNat_lt (by omega)
        have e3 : (UInt8.ofNat (0x80 + n % 64)).toNat = 0x80 + n % 64 := toNat_ofNat_lt (by omega)
        have ht : ¬ two (UInt8.ofNat (0xF0 + n / 262144)) (UInt8.ofNat (0x80 + n / 4096 % 64)) = true := by
          unfold two; rw [e0]; simp only [Bool.and_eq_true, decide_eq_true_eq]; omega
        have ht3 : ¬ three (UInt8.ofNat (0xF0 + n / 262144)) (UInt8.ofNat (0x80 + n / 4096 % 64))
            (UInt8.ofNat (0x80 + n / 64 % 64)) = true := by
          unfold three; rw [e0]
          simp only [Bool.and_eq_true, Bool.or_eq_true, decide_eq_true_eq, beq_iff_eq]; omega
        have ht4 : four (UInt8.ofNat (0xF0 + n / 262144)) (UInt8.ofNat (0x80 + n / 4096 % 64)) (UInt8.ofNat (0x80 + n / 64 % 64))
            (UInt8.ofNat (0x80 + n % 64)) = true := by
          unfold four cont; rw [e0, e1, e2, e3]
          simp only [Bool.and_eq_true, Bool.or_eq_true, decide_eq_true_eq, beq_iff_eq]; omega
        rw [decode.eq_def (_ :: _)]
        dsimp only
        rw [if_neg (show ¬ _ < _ by rw [e0]; omega)]
        rw [if_neg ht, if_neg ht3, if_pos ht4, e0, e1, e2, e3, ofNat_of_toNat (c := c) (by omega)]

theorem encode_nil : encode [] = [] := rfl
theorem encode_cons (c : Char) (s : Text) : encode (c :: s) = encodeChar c ++ encode s := rfl
theorem encode_append (s t : Text) : encode (s ++ t) = encode s ++ encode t := by
  unfold encode; exact List.flatMap_append

theorem decode_encode_append (s : Text) (rest : Raw) : decode (encode s ++ rest) = (decode rest).map (s ++ ·) := by
  induction s with
  | nil => cases h : decode rest <;> simp [encode_nil, h]
  | cons c s ih =>
    rw [encode_cons, List.append_assoc, decode_encodeChar, ih]
    cases decode rest <;> rfl

theorem decode_encode (s : Text) : decode (encode s) = some s := by
  have := decode_encode_append s []
  simpa [decode] using this

theorem encode_inj {s t : Text} (h : encode s = encode t) : s = t := by
  have := decode_encode s
  rw [h, decode_encode] at this
  exact (Option.some.inj this).symm

theorem encode_decode : ∀ (bs : Raw) (t : Text), decode bs = some t → encode t = bs
  | [], t, h => by rw [decode] at h; cases h; rfl
  | b0 :: r0, t, h => by
    rw [decode.eq_def] at h
    dsimp only at h
    have l0 := b0.toNat_lt
    split at h
    · rename_i h0
      obtain ⟨t', ht', rfl⟩ := Option.map_eq_some_iff.1 h
      rw [encode_cons, encode_decode r0 t' ht', encodeChar, toNat_ofNat_char (by omega)]
      rw [if_pos h0, UInt8.ofNat_toNat]; rfl
    · rename_i h0
      match r0, h with
      | b1 :: r1, h =>
        dsimp only at h
        have l1 := b1.toNat_lt
        split at h
        · rename_i h1
          obtain ⟨t', ht', rfl⟩ := Option.map_eq_some_iff.1 h
          unfold two cont at h1
          simp only [Bool.and_eq_true, decide_eq_true_eq] at h1
          rw [encode_cons, encode_decode r1 t' ht', encodeChar, toNat_ofNat_char (by omega)]
          rw [if_neg (by omega), if_pos (by omega), ofNat_of_toNat8 (b := b0) (by omega), ofNat_of_toNat8 (b := b1) (by omega)]; rfl
        · match r1, h with
          | b2 :: r2, h =>
            dsimp only at h
            have l2 := b2.toNat_lt
            split at h
            · rename_i h2
              obtain ⟨t', ht', rfl⟩ := Option.map_eq_some_iff.1 h
              unfold three cont at h2
              simp only [Bool.and_eq_true, Bool.or_eq_true, decide_eq_true_eq, beq_iff_eq] at h2
              rw [encode_cons, encode_decode r2 t' ht', encodeChar, toNat_ofNat_char (by omega)]
              rw [if_neg (by omega), if_neg (by omega), if_pos (by omega), ofNat_of_toNat8 (b := b0) (by omega),
                ofNat_of_toNat8 (b := b1) (by omega), ofNat_of_toNat8 (b := b2) (by omega)]; rfl
            · match r2, h with
              | b3 :: r3, h =>
                dsimp only at h
                have l3 := b3.toNat_lt
                split at h
                · rename_i h2
                  obtain ⟨t', ht', rfl⟩ := Option.map_eq_some_iff.1 h
                  unfold four cont at h2
                  simp only [Bool.and_eq_true, Bool.or_eq_true, decide_eq_true_eq, beq_iff_eq] at h2
                  rw [encode_cons, encode_decode r3 t' ht', encodeChar, toNat_ofNat_char (by omega)]
                  rw [if_neg (by omega), if_neg (by omega), if_neg (by omega), ofNat_of_toNat8 (b := b0) (by omega),
                    ofNat_of_toNat8 (b := b1) (by omega), ofNat_of_toNat8 (b := b2) (by omega), ofNat_of_toNat8 (b := b3) (by omega)]; rfl
                · cases h

theorem encodeChar_eq (c : Char) : encodeChar c = String.utf8EncodeChar c := by
  have hv := char_valid c
  unfold encodeChar String.utf8EncodeChar
  dsimp only
  have hn : c.val.toNat = c.toNat := rfl
  rw [hn]
  generalize c.toNat = n at hv
  by_cases h1 : n < 0x80
  · rw [if_pos h1, if_pos (show n ≤ 0x7f by omega)]
  · rw [if_neg h1, if_neg (show ¬ n ≤ 0x7f by omega)]
    by_cases h2 : n < 0x800
    · rw [if_pos h2, if_pos (show n ≤ 0x7ff by omega), show 0xC0 + n / 64 = n / 64 % 0x20 + 0xc0 by omega, show 0x80 + n % 64 = n % 0x40 + 0x80 by omega]
    · rw [if_neg h2, if_neg (show ¬ n ≤ 0x7ff by omega)]
      by_cases h3 : n < 0x10000
      · rw [if_pos h3, if_pos (show n ≤ 0xffff by omega), show 0xE0 + n / 4096 = n / 4096 % 0x10 + 0xe0 by omega,
          show 0x80 + n / 64 % 64 = n / 64 % 0x40 + 0x80 by omega, show 0x80 + n % 64 = n % 0x40 + 0x80 by omega]
      · rw [if_neg h3, if_neg (show ¬ n ≤ 0xffff by omega), show 0xF0 + n / 262144 = n / 262144 % 0x08 + 0xf0 by omega,
          show 0x80 + n / 4096 % 64 = n / 4096 % 0x40 + 0x80 by omega,
          show 0x80 + n / 64 % 64 = n / 64 % 0x40 + 0x80 by omega, show 0x80 + n % 64 = n % 0x40 + 0x80 by omega]

/-! ### Bytes below 128 -/

theorem encodeChar_ascii {c : Char} (h : c.toNat < 0x80) : encodeChar c = [UInt8.ofNat c.toNat] := by
  unfold encodeChar; dsimp only; rw [if_pos h]

theorem encodeChar_high {c : Char} (h : ¬ c.toNat < 0x80) : ∀ b ∈ encodeChar c, 0x80 ≤ b.toNat := by
  have hv := char_valid c
  unfold encodeChar
  dsimp only
  rw [if_neg h]
  split
  · simp only [List.mem_cons, List.not_mem_nil, or_false]
    rintro b (rfl | rfl) <;> rw [toNat_ofNat_lt (by omega)] <;> omega
  · split
    · simp only [List.mem_cons, List.not_mem_nil, or_false]
      rintro b (rfl | rfl | rfl) <;> rw [toNat_ofNat_lt (by omega)] <;> omega
    · simp only [List.mem_cons, List.not_mem_nil, or_false]
      rintro b (rfl | rfl | rfl | rfl) <;> rw [toNat_ofNat_lt (by omega)] <;> omega

theorem encodeChar_ne_nil (c : Char) : encodeChar c ≠ [] := by
  unfold encodeChar; dsimp only; split <;> (try split) <;> (try split) <;> simp

theorem encodeChar_of_low {c : Char} {b : UInt8} (hb : b ∈ encodeChar c) (h : b.toNat < 0x80) : encodeChar c = [b] ∧ c = Char.ofNat b.toNat := by
  by_cases hc : c.toNat < 0x80
  · rw [encodeChar_ascii hc] at hb ⊢
    simp only [List.mem_singleton] at hb
    subst hb
    refine ⟨rfl, ?_⟩
    rw [toNat_ofNat_lt (by omega), Char.ofNat_toNat]
  · have := encodeChar_high hc b hb; omega

theorem newline_mem_encodeChar {c : Char} (h : (10 : UInt8) ∈ encodeChar c) : c = '\n' := (encodeChar_of_low h (by decide)).2

theorem encodeChar_newline : encodeChar '\n' = [10] := by decide

/-! ### Lines -/

/-- The lines of a text with their line feeds. -/
def textRaw (cur : Text) : Text → List Text
  | [] => if cur.isEmpty then [] else [cur]
  | c :: cs => if c = '\n' then (cur ++ [c]) :: textRaw [] cs else textRaw (cur ++ [c]) cs

/-- A line without its end. -/
def stripEnd (s : Text) : Text := if s.getLast? = some '\n' then stripCr s.dropLast else s

theorem rawLines_skip (bs : Raw) (h : (10 : UInt8) ∉ bs) (cur rest : Raw) : rawLines cur (bs ++ rest) = rawLines (cur ++ bs) rest := by
  induction bs generalizing cur with
  | nil => simp
  | cons b bs ih =>
    rw [List.cons_append, rawLines, if_neg (by rintro rfl; exact h (by simp)), ih (fun hm => h (by simp [hm]))]
    simp

theorem encode_eq_nil {s : Text} : encode s = [] ↔ s = [] := by
  constructor
  · intro h
    cases s with
    | nil => rfl
    | cons c s =>
      rw [encode_cons] at h
      exact absurd (List.append_eq_nil_iff.1 h).1 (encodeChar_ne_nil c)
  · rintro rfl; rfl

theorem rawLines_encode (cur s : Text) : rawLines (encode cur) (encode s) = (textRaw cur s).map encode := by
  induction s generalizing cur with
  | nil =>
    rw [encode_nil, rawLines, textRaw]
    by_cases h : cur = []
    · subst h; rfl
    · rw [if_neg (by simpa [List.isEmpty_iff, encode_eq_nil] using h), if_neg (by simpa [List.isEmpty_iff] using h)]; rfl
  | cons c s ih =>
    rw [encode_cons, textRaw]
    by_cases h : c = '\n'
    · subst h
      have := ih []
      rw [encode_nil] at this
      rw [encodeChar_newline, List.cons_append, List.nil_append, rawLines, if_pos rfl, if_pos rfl, List.map_cons, encode_append, this]
      rfl
    · rw [if_neg h, rawLines_skip _ (fun hm => h (newline_mem_encodeChar hm)), ← ih, encode_append]
      simp [encode]

theorem linesAux_textRaw (cur s : Text) (h : '\n' ∉ cur) : linesAux cur s = (textRaw cur s).map stripEnd := by
  induction s generalizing cur with
  | nil =>
    rw [linesAux, textRaw]
    by_cases hc : cur = []
    · subst hc; rfl
    · rw [if_neg (by simpa [List.isEmpty_iff] using hc), List.map_cons, List.map_nil, stripEnd, if_neg]
      intro hl
      exact h (List.mem_of_getLast? hl)
  | cons c s ih =>
    rw [linesAux, textRaw]
    by_cases hc : c = '\n'
    · rw [if_pos hc, if_pos hc, List.map_cons, ih [] (by simp), stripEnd, if_pos (by simp [hc])]
      simp
    · rw [if_neg hc, if_neg hc, ih]
      simp only [List.mem_append, List.mem_singleton, not_or]
      exact ⟨h, fun e => hc e.symm⟩

theorem lineOf_encode (raw : Text) : lineOf (encode raw) = some (stripEnd raw) := by
  unfold lineOf; rw [decode_encode]; rfl

theorem readLoop_encode (parse : Text → Run (Except Text GraphCommand)) (ls : List Text) (i : Nat) (res : List GraphCommand) :
    readLoop parse i (ls.map encode) res = Format.readLoop parse i (ls.map stripEnd) res := by
  induction ls generalizing i res with
  | nil => rfl
  | cons l ls ih =>
    rw [List.map_cons, List.map_cons, readLoop, Format.readLoop, lineOf_encode]
    simp only [Run.unwrap, Run.bind]
    split
    · cases parse (stripEnd l) with
      | running => rfl
      | panicked => rfl
      | done r =>
        cases r with
        | ok c => exact ih _ _
        | error m => rfl
    · exact ih _ _

/-- What becomes of the outcome of the lines read so far when the next line is not UTF-8. -/
def thenPanic {α ε : Type} : Run (Except ε α) → Run (Except ε α)
  | .done (.ok _) => .panicked
  | r => r

theorem readLoop_bad (parse : Text → Run (Except Text GraphCommand)) (ls : List Text) (raw : Raw) (rest : List Raw) (h : decode raw = none)
    (i : Nat) (res : List GraphCommand) :
    readLoop parse i (ls.map encode ++ raw :: rest) res = thenPanic (Format.readLoop parse i (ls.map stripEnd) res) := by
  induction ls generalizing i res with
  | nil =>
    rw [List.map_nil, List.nil_append, readLoop, lineOf, h]; rfl
  | cons l ls ih =>
    rw [List.map_cons, List.map_cons, List.cons_append, readLoop, Format.readLoop, lineOf_encode]
    simp only [Run.unwrap, Run.bind]
    split
    · cases parse (stripEnd l) with
      | running => rfl
      | panicked => rfl
      | done r =>
        cases r with
        | ok c => exact ih _ _
        | error m => rfl
    · exact ih _ _

theorem readAsCommands_encode (parse : Text → Run (Except Text GraphCommand)) (s : Text) :
    readAsCommands parse (encode s) = Format.readAsCommands parse s := by
  unfold readAsCommands Format.readAsCommands lines
  have := rawLines_encode [] s
  rw [encode_nil] at this
  rw [this, linesAux_textRaw [] s (by simp), readLoop_encode]

theorem read_encode (parse : Text → Run (Except Text GraphCommand)) (s : Text) : read parse (encode s) = Format.read parse s := by
  unfold read Format.read
  rw [readAsCommands_encode]
  rcases Format.readAsCommands parse s with _ | _ | r
  · rfl
  · rfl
  · cases r <;> rfl

/-! ### Files that are not UTF-8 -/

theorem decode_ascii_suffix {bs : Raw} {a : UInt8} (ha : a.toNat < 0x80) {t : Text} (h : encode t = bs ++ [a]) : ∃ u, bs = encode u := by
  rcases List.eq_nil_or_concat t with rfl | ⟨u, c, rfl⟩
  · rw [encode_nil] at h; simp at h
  · rw [List.concat_eq_append, encode_append] at h
    have hc : encode [c] = encodeChar c := by simp [encode]
    rw [hc] at h
    have hl : (encodeChar c).getLast? = some a := by
      have := congrArg List.getLast? h
      rw [List.getLast?_append_of_ne_nil _ (encodeChar_ne_nil c)] at this
      simpa using this
    have hs := (encodeChar_of_low (List.mem_of_getLast? hl) ha).1
    rw [hs] at h
    exact ⟨u, (List.append_inj_left' h rfl).symm⟩

theorem decode_none_of_suffix {bs : Raw} {s : Text} (hs : ∀ c ∈ s, c.toNat < 0x80) (h : ∀ u, encode u ≠ bs) : ∀ u, encode u ≠ bs ++ encode s := by
  induction s using List.reverseRecOn with
  | nil => simpa [encode_nil] using h
  | append_singleton s c ih =>
    intro u hu
    have hc : c.toNat < 0x80 := hs c (by simp)
    have he : encode [c] = [UInt8.ofNat c.toNat] := by simp [encode, encodeChar_ascii hc]
    rw [encode_append, he, ← List.append_assoc] at hu
    obtain ⟨v, hv⟩ := decode_ascii_suffix (by rw [toNat_ofNat_lt (by omega)]; exact hc) hu
    exact ih (fun d hd => hs d (by simp [hd])) v hv.symm

theorem decode_none_iff {bs : Raw} : decode bs = none ↔ ∀ t, encode t ≠ bs := by
  constructor
  · rintro h t rfl
    rw [decode_encode] at h; cases h
  · intro h
    cases hd : decode bs with
    | none => rfl
    | some t => exact absurd (encode_decode bs t hd) (h t)

theorem rawLines_append_terminated (s : Text) (hs : NewlineTerminated s) (cur : Text) (hc : cur = [] ∨ s ≠ []) (rest : Raw) :
    rawLines (encode cur) (encode s ++ rest) = (textRaw cur s).map encode ++ rawLines [] rest := by
  induction s generalizing cur with
  | nil =>
    rcases hc with rfl | hc
    · rfl
    · exact absurd rfl hc
  | cons c s ih =>
    have hs' : s ≠ [] → NewlineTerminated s := by
      intro hn
      rcases hs with hs | hs
      · cases hs
      · right
        rw [List.getLast?_cons_of_ne_nil hn] at hs
        exact hs
    rw [encode_cons, textRaw]
    by_cases h : c = '\n'
    · subst h
      have := ih (if hn : s = [] then Or.inl hn else hs' hn) [] (Or.inl rfl)
      rw [encode_nil] at this
      rw [encodeChar_newline, List.cons_append, List.nil_append, List.cons_append, rawLines, if_pos rfl, if_pos rfl, List.map_cons, encode_append, this]
      rfl
    · have hn : s ≠ [] := by
        rintro rfl
        rcases hs with hs | hs
        · cases hs
        · exact h (by simpa using hs)
      rw [if_neg h, List.append_assoc, rawLines_skip _ (fun hm => h (newline_mem_encodeChar hm)), ← ih (hs' hn) (cur ++ [c]) (Or.inr hn), encode_append]
      simp [encode]

theorem rawLines_bad {raw rest : Raw} (h10 : (10 : UInt8) ∉ raw) (hr : rest = [] ∨ rest.head? = some 10) (hbad : ∀ t, encode t ≠ raw) :
    ∃ l ls, rawLines [] (raw ++ rest) = l :: ls ∧ decode l = none := by
  rw [rawLines_skip _ h10, List.nil_append]
  rcases hr with rfl | hr
  · refine ⟨raw, [], ?_, decode_none_iff.2 hbad⟩
    rw [rawLines, if_neg]
    intro he
    rw [List.isEmpty_iff] at he
    exact hbad [] (by rw [he]; rfl)
  · cases rest with
    | nil => cases hr
    | cons b rest =>
      simp only [List.head?_cons, Option.some.injEq] at hr
      subst hr
      refine ⟨raw ++ [10], rawLines [] rest, by rw [rawLines, if_pos rfl], decode_none_iff.2 ?_⟩
      have := decode_none_of_suffix (s := ['\n']) (by decide) hbad
      simpa [encode, encodeChar_newline] using this

theorem readAsCommands_bad (parse : Text → Run (Except Text GraphCommand)) {t : Text} {raw rest : Raw} (ht : NewlineTerminated t)
    (h10 : (10 : UInt8) ∉ raw) (hr : rest = [] ∨ rest.head? = some 10) (hbad : ∀ t, encode t ≠ raw) :
    readAsCommands parse (encode t ++ (raw ++ rest)) = thenPanic (Format.readAsCommands parse t) := by
  obtain ⟨l, ls, h1, h2⟩ := rawLines_bad h10 hr hbad
  have := rawLines_append_terminated t ht [] (Or.inl rfl) (raw ++ rest)
  rw [encode_nil] at this
  unfold readAsCommands Format.readAsCommands lines
  rw [this, h1, readLoop_bad _ _ _ _ h2, linesAux_textRaw [] t (by simp)]

theorem not_utf8_shape : ∀ (n : Nat) (bs : Raw), bs.length ≤ n → (∀ t, encode t ≠ bs) →
    ∃ (t : Text) (raw rest : Raw), bs = encode t ++ (raw ++ rest) ∧ NewlineTerminated t ∧ (10 : UInt8) ∉ raw ∧
      (rest = [] ∨ rest.head? = some 10) ∧ ∀ u, encode u ≠ raw
  | 0, bs, hn, h => by
    have : bs = [] := List.length_eq_zero_iff.1 (by omega)
    subst this
    exact absurd rfl (h [])
  | n + 1, bs, hn, h => by
    by_cases h10 : (10 : UInt8) ∈ bs
    · obtain ⟨l, rest, rfl, hl⟩ := List.eq_append_cons_of_mem h10
      by_cases hd : ∃ u, encode u = l
      · obtain ⟨u, rfl⟩ := hd
        have hrest : ∀ t, encode t ≠ rest := by
          rintro t rfl
          refine h (u ++ '\n' :: t) ?_
          rw [encode_append, encode_cons, encodeChar_newline]; rfl
        obtain ⟨t, raw, r, rfl, h1, h2, h3, h4⟩ := not_utf8_shape n rest (by simp at hn; omega) hrest
        refine ⟨u ++ '\n' :: t, raw, r, ?_, ?_, h2, h3, h4⟩
        · rw [encode_append, encode_cons, encodeChar_newline]; simp
        · right
          rcases h1 with rfl | h1
          · simp
          · rw [List.getLast?_append_of_ne_nil _ (by simp)]
            rw [List.getLast?_cons_of_ne_nil]
            · exact h1
            · rintro rfl; cases h1
      · exact ⟨[], l, 10 :: rest, rfl, Or.inl rfl, hl, Or.inr rfl, fun u hu => hd ⟨u, hu⟩⟩
    · exact ⟨[], bs, [], by simp [encode_nil], Or.inl rfl, h10, Or.inl rfl, h⟩

/-! ### What the tools write is ASCII -/

theorem encode_ascii_length {s : Text} (h : ∀ c ∈ s, c.toNat < 0x80) : (encode s).length = s.length := by
  induction s with
  | nil => rfl
  | cons c s ih =>
    rw [encode_cons, encodeChar_ascii (h c (by simp))]
    simp [ih (fun d hd => h d (by simp [hd]))]

theorem prefix_encode {s : Text} (h : ∀ c ∈ s, c.toNat < 0x80) {p : Raw} (hp : p <+: encode s) : ∃ q, q <+: s ∧ p = encode q := by
  induction s generalizing p with
  | nil =>
    rw [encode_nil, List.prefix_nil] at hp
    exact ⟨[], by simp, hp⟩
  | cons c s ih =>
    rw [encode_cons, encodeChar_ascii (h c (by simp))] at hp
    cases p with
    | nil => exact ⟨[], by simp, rfl⟩
    | cons b p =>
      rw [List.cons_append, List.nil_append, List.cons_prefix_cons] at hp
      obtain ⟨q, h1, h2⟩ := ih (fun d hd => h d (by simp [hd])) hp.2
      refine ⟨c :: q, by rw [List.cons_prefix_cons]; exact ⟨rfl, h1⟩, ?_⟩
      rw [encode_cons, encodeChar_ascii (h c (by simp)), ← h2, hp.1]; rfl

theorem showId_low (v : VertexId) : ∀ c ∈ showId v, c.toNat < 0x80 := by
  intro c hc
  have := GC.showId_ascii v c hc
  unfold isAsciiDigit at this
  simp at this
  omega

theorem commandIntoLine_low (c : GraphCommand) : ∀ d ∈ Gcmd.commandIntoLine c, d.toNat < 0x80 := by
  have h1 : ∀ d ∈ Gcmd.kwAddVertex, d.toNat < 0x80 := by decide
  have h2 : ∀ d ∈ Gcmd.kwAddEdge, d.toNat < 0x80 := by decide
  have h3 : ∀ d ∈ Gcmd.kwRemoveVertex, d.toNat < 0x80 := by decide
  have h4 : ∀ d ∈ Gcmd.kwRemoveEdge, d.toNat < 0x80 := by decide
  intro d hd
  cases c <;> simp only [Gcmd.commandIntoLine, List.mem_append, List.mem_singleton] at hd
  · exact hd.elim (h1 d) (showId_low _ d)
  · exact hd.elim (h3 d) (showId_low _ d)
  · rcases hd with ((hd | hd) | rfl) | hd
    · exact h2 d hd
    · exact showId_low _ d hd
    · decide
    · exact showId_low _ d hd
  · rcases hd with ((hd | hd) | rfl) | hd
    · exact h4 d hd
    · exact showId_low _ d hd
    · decide
    · exact showId_low _ d hd

theorem commandsText_low (cs : List GraphCommand) : ∀ d ∈ Gcmd.commandsText cs, d.toNat < 0x80 := by
  intro d hd
  unfold Gcmd.commandsText at hd
  obtain ⟨c, _, h⟩ := List.mem_flatMap.1 hd
  rw [List.mem_append, List.mem_singleton] at h
  rcases h with h | rfl
  · exact commandIntoLine_low c d h
  · decide

theorem save_low (g : DirectedGraph) : ∀ d ∈ Gcmd.save g, d.toNat < 0x80 := by
  have h1 : ∀ d ∈ Gcmd.kwAddVertex, d.toNat < 0x80 := by decide
  have h2 : ∀ d ∈ Gcmd.kwAddEdge, d.toNat < 0x80 := by decide
  intro d hd
  unfold Gcmd.save at hd
  rw [List.mem_append] at hd
  rcases hd with hd | hd
  · obtain ⟨v, _, h⟩ := List.mem_flatMap.1 hd
    simp only [List.mem_append, List.mem_singleton] at h
    rcases h with (h | h) | rfl
    · exact h1 d h
    · exact showId_low _ d h
    · decide
  · obtain ⟨e, _, h⟩ := List.mem_flatMap.1 hd
    simp only [List.mem_append, List.mem_singleton] at h
    rcases h with (((h | h) | rfl) | h) | rfl
    · exact h2 d h
    · exact showId_low _ d h
    · decide
    · exact showId_low _ d h
    · decide

/-! ### Standard input -/

theorem firstLine_stop (a rest : Raw) (h : (10 : UInt8) ∉ a) (hr : rest = [] ∨ rest.head? = some 10) : firstLine (a ++ rest) = a ++ rest.take 1 := by
  induction a with
  | nil =>
    cases rest with
    | nil => rfl
    | cons b r =>
      rcases hr with hr | hr
      · cases hr
      · simp only [List.head?_cons, Option.some.injEq] at hr
        subst hr
        simp [firstLine]
  | cons b a ih =>
    rw [List.cons_append, firstLine, if_neg (by rintro rfl; exact h (by simp)), ih (fun hm => h (by simp [hm]))]
    rfl

theorem newline_not_mem_encode {s : Text} (h : '\n' ∉ s) : (10 : UInt8) ∉ encode s := by
  intro hm
  obtain ⟨c, hc, hb⟩ := List.mem_flatMap.1 hm
  exact h (newline_mem_encodeChar hb ▸ hc)

end Bytes
end GC
