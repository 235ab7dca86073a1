/-
C99: the commands file and the answers of the user as bytes.
-/
import Verif.Spec.Bytes
import Verif.Spec.Format
import Verif.Spec.Store
import Verif.Proofs.Bytes
import Verif.Props.Format
import Verif.Props.Store
namespace GC
namespace Bytes
open Text Format Store

theorem utf8_eq (t : Text) : utf8 t = encode t := by
  unfold utf8 encode
  exact congrArg (t.flatMap ·) (funext fun c => (encodeChar_eq c).symm)

theorem isUtf8_iff {bs : Raw} : IsUtf8 bs ↔ ∃ t, encode t = bs := by
  unfold IsUtf8; simp only [utf8_eq]

theorem not_isUtf8 {bs : Raw} (h : ¬ IsUtf8 bs) : ∀ t, encode t ≠ bs := fun t ht => h (isUtf8_iff.2 ⟨t, ht⟩)

/-- C99: the decoder used for lines and answers accepts exactly the UTF-8 byte sequences, and gives the text they encode. -/
theorem C99_decoding (bs : List UInt8) (t : Text) : decode bs = some t ↔ utf8 t = bs := by
  rw [utf8_eq]
  exact ⟨encode_decode bs t, fun h => h ▸ decode_encode t⟩

/-- C99: a file that is UTF-8 is read as the text it encodes, in both formats: same commands, same graph, same error, same panic. All
theorems about files as text are theorems about such files. -/
theorem C99_text_files (nd : Char → Bool) (t : Text) :
    readAsCommands (Gcmd.parseLine nd) (utf8 t) = Gcmd.readAsCommands nd t ∧
    read (Gcmd.parseLine nd) (utf8 t) = Gcmd.read nd t ∧
    readAsCommands (Tgf.parseLine nd) (utf8 t) = Tgf.readAsCommands nd t ∧
    read (Tgf.parseLine nd) (utf8 t) = Tgf.read nd t := by
  rw [utf8_eq]
  exact ⟨readAsCommands_encode _ t, read_encode _ t, readAsCommands_encode _ t, read_encode _ t⟩

/-- C99: a file that is not UTF-8 has a first line that is not UTF-8: complete lines of text `t`, the bytes `raw` of that line, and the
rest of the file from the line feed. -/
theorem C99_first_bad_line (file : List UInt8) (h : ¬ IsUtf8 file) :
    ∃ (t : Text) (raw rest : List UInt8), file = utf8 t ++ raw ++ rest ∧ NewlineTerminated t ∧ 10 ∉ raw ∧
      (rest = [] ∨ rest.head? = some 10) ∧ ¬ IsUtf8 raw := by
  obtain ⟨t, raw, rest, h1, h2, h3, h4, h5⟩ := not_utf8_shape _ file (Nat.le_refl _) (not_isUtf8 h)
  refine ⟨t, raw, rest, by rw [utf8_eq, h1, List.append_assoc], h2, h3, h4, ?_⟩
  rw [isUtf8_iff]
  rintro ⟨u, hu⟩
  exact h5 u hu

/-- C99: reading such a file stops at that line: if the lines before it are read without error, the program panics; otherwise the answer
(error or panic) is the one for the lines before it. Nothing behind the bad line matters. -/
theorem C99_not_text (nd : Char → Bool) (t : Text) (raw rest : List UInt8) (ht : NewlineTerminated t) (h10 : 10 ∉ raw)
    (hr : rest = [] ∨ rest.head? = some 10) (hbad : ¬ IsUtf8 raw) :
    (∀ cs, Gcmd.readAsCommands nd t = .done (.ok cs) → readAsCommands (Gcmd.parseLine nd) (utf8 t ++ raw ++ rest) = .panicked) ∧
    (∀ e, Gcmd.readAsCommands nd t = .done (.error e) → readAsCommands (Gcmd.parseLine nd) (utf8 t ++ raw ++ rest) = .done (.error e)) ∧
    (Gcmd.readAsCommands nd t = .panicked → readAsCommands (Gcmd.parseLine nd) (utf8 t ++ raw ++ rest) = .panicked) := by
  rw [utf8_eq, List.append_assoc, readAsCommands_bad _ ht h10 hr (not_isUtf8 hbad)]
  unfold Gcmd.readAsCommands
  refine ⟨fun cs h => ?_, fun e h => ?_, fun h => ?_⟩ <;> rw [h] <;> rfl

/-- C99: a file that is not UTF-8 never loads: reading it is an error or a panic. -/
theorem C99_never_loads (nd : Char → Bool) (file : List UInt8) (h : ¬ IsUtf8 file) :
    (∀ cs, readAsCommands (Gcmd.parseLine nd) file ≠ .done (.ok cs)) ∧ (∀ g, read (Gcmd.parseLine nd) file ≠ .done (.ok g)) := by
  obtain ⟨t, raw, rest, rfl, h2, h3, h4, h5⟩ := not_utf8_shape _ file (Nat.le_refl _) (not_isUtf8 h)
  have hne : ∀ cs, readAsCommands (Gcmd.parseLine nd) (encode t ++ (raw ++ rest)) ≠ .done (.ok cs) := by
    rw [readAsCommands_bad _ h2 h3 h4 h5]
    rcases Format.readAsCommands (Gcmd.parseLine nd) t with _ | _ | r
    · intro cs hc; cases hc
    · intro cs hc; cases hc
    · cases r <;> (intro cs hc; cases hc)
  refine ⟨hne, fun g hg => ?_⟩
  unfold read at hg
  generalize hr : readAsCommands (Gcmd.parseLine nd) (encode t ++ (raw ++ rest)) = r at hg hne
  cases r with
  | running => cases hg
  | panicked => cases hg
  | done r =>
    cases r with
    | ok cs => exact hne cs rfl
    | error e => cases hg

/-- C99 for TGF: the same for a TGF file that is not UTF-8: reading it stops at the first line that is not, and it never loads. -/
theorem C99_tgf_not_text (nd : Char → Bool) (t : Text) (raw rest : List UInt8) (ht : NewlineTerminated t) (h10 : 10 ∉ raw)
    (hr : rest = [] ∨ rest.head? = some 10) (hbad : ¬ IsUtf8 raw) :
    (∀ cs, Tgf.readAsCommands nd t = .done (.ok cs) → readAsCommands (Tgf.parseLine nd) (utf8 t ++ raw ++ rest) = .panicked) ∧
    (∀ e, Tgf.readAsCommands nd t = .done (.error e) → readAsCommands (Tgf.parseLine nd) (utf8 t ++ raw ++ rest) = .done (.error e)) ∧
    (Tgf.readAsCommands nd t = .panicked → readAsCommands (Tgf.parseLine nd) (utf8 t ++ raw ++ rest) = .panicked) ∧
    ∀ g, read (Tgf.parseLine nd) (utf8 t ++ raw ++ rest) ≠ .done (.ok g) := by
  unfold read
  rw [utf8_eq, List.append_assoc, readAsCommands_bad _ ht h10 hr (not_isUtf8 hbad)]
  unfold Tgf.readAsCommands
  refine ⟨fun cs h => ?_, fun e h => ?_, fun h => ?_, fun g => ?_⟩
  · rw [h]; rfl
  · rw [h]; rfl
  · rw [h]; rfl
  · rcases Format.readAsCommands (Tgf.parseLine nd) t with _ | _ | r
    · intro hc; cases hc
    · intro hc; cases hc
    · cases r <;> (intro hc; cases hc)

/-- `C99_not_text` and `C99_tgf_not_text`: a comment in Latin-1 behind a good line and behind a bad one. -/
example (nd : Char → Bool) (h : ¬ IsUtf8 [0x23, 0xF6, 0xDF]) :
    readAsCommands (Gcmd.parseLine nd) (utf8 "AddEdge 1 2\n".toList ++ [0x23, 0xF6, 0xDF] ++ [10]) = .panicked ∧
    readAsCommands (Gcmd.parseLine fun _ => false) (utf8 "AddEdge\n".toList ++ [0x23, 0xF6, 0xDF] ++ [10]) =
      .done (.error (.atLine 1 "AddEdge".toList)) ∧
    readAsCommands (Tgf.parseLine fun _ => false) (utf8 "1 Paris\n".toList ++ [0x23, 0xF6, 0xDF] ++ [10]) = .panicked :=
  ⟨(C99_not_text nd _ _ _ (.inr (by decide)) (by decide) (.inr rfl) h).1 [.AddEdge 1 2] (C13_own_files_do_not_panic_partial nd [.AddEdge 1 2] :),
    (C99_not_text _ _ _ _ (.inr (by decide)) (by decide) (.inr rfl) h).2.1 _ (by decide),
    (C99_tgf_not_text _ _ _ _ (.inr (by decide)) (by decide) (.inr rfl) h).1 [.AddVertex 1] (by decide)⟩

/-- C99: gc-build on a file that is not UTF-8 panics and leaves every byte as it is; on a file that is UTF-8 it does what it does on
the text. -/
theorem C99_build (nd : Char → Bool) (order : DirectedGraph → DirectedGraph) :
    (∀ file, ¬ IsUtf8 file → build nd order file = (file, .panic)) ∧
    (∀ t g, Gcmd.read nd t = .done (.ok g) → build nd order (utf8 t) = (utf8 (Gcmd.save (order g)), .success)) ∧
    (∀ t, (∀ g, Gcmd.read nd t ≠ .done (.ok g)) → build nd order (utf8 t) = (utf8 t, .panic)) := by
  refine ⟨fun file h => ?_, fun t g h => ?_, fun t h => ?_⟩
  · have := (C99_never_loads nd file h).2
    unfold build
    generalize read (Gcmd.parseLine nd) file = r at this
    rcases r with _ | _ | r
    · rfl
    · rfl
    · cases r with
      | ok g => exact absurd rfl (this g)
      | error e => rfl
  · unfold build
    rw [(C99_text_files nd t).2.1, h, utf8_eq (Gcmd.save (order g))]
  · unfold build
    rw [(C99_text_files nd t).2.1]
    generalize Gcmd.read nd t = r at h
    rcases r with _ | _ | r
    · rfl
    · rfl
    · cases r with
      | ok g => exact absurd rfl (h g)
      | error e => rfl

/-- C99: what the commands write is one byte per character, so that a write cut off at any byte leaves a prefix of the text: the
crash and disk theorems about prefixes of the text cover all cuts between bytes. -/
theorem C99_torn_writes (cs : List GraphCommand) (g : DirectedGraph) (p : List UInt8) :
    (p <+: utf8 (Gcmd.commandsText cs) ↔ ∃ q, q <+: Gcmd.commandsText cs ∧ p = utf8 q) ∧
    (p <+: utf8 (Gcmd.save g) ↔ ∃ q, q <+: Gcmd.save g ∧ p = utf8 q) ∧
    (utf8 (Gcmd.commandsText cs)).length = (Gcmd.commandsText cs).length ∧ (utf8 (Gcmd.save g)).length = (Gcmd.save g).length := by
  simp only [utf8_eq]
  have hback : ∀ {q s : Text}, q <+: s → encode q <+: encode s := by
    rintro q s ⟨r, rfl⟩
    exact ⟨encode r, (encode_append q r).symm⟩
  refine ⟨⟨prefix_encode (commandsText_low cs), ?_⟩, ⟨prefix_encode (save_low g), ?_⟩, encode_ascii_length (commandsText_low cs),
    encode_ascii_length (save_low g)⟩
  · rintro ⟨q, h, rfl⟩; exact hback h
  · rintro ⟨q, h, rfl⟩; exact hback h

/-- C99: additions and removals keep all bytes of the file and add the bytes of their lines; they never make an unreadable file look
readable. -/
theorem C99_append (file : List UInt8) (cs : List GraphCommand) :
    addCommands file cs = file ++ utf8 (Gcmd.commandsText cs) ∧
    (IsUtf8 (addCommands file cs) ↔ IsUtf8 file) ∧
    (∀ t, file = utf8 t → addCommands file cs = utf8 (Gcmd.addCommands t cs)) := by
  unfold addCommands
  refine ⟨by rw [utf8_eq], ⟨fun h => ?_, ?_⟩, ?_⟩
  · apply Classical.byContradiction
    intro hn
    obtain ⟨t, ht⟩ := isUtf8_iff.1 h
    exact decode_none_of_suffix (commandsText_low cs) (not_isUtf8 hn) t ht
  · rintro ⟨t, rfl⟩
    exact ⟨t ++ Gcmd.commandsText cs, by simp only [utf8_eq, encode_append]⟩
  · rintro t rfl
    unfold Gcmd.addCommands
    simp only [utf8_eq, encode_append]

theorem trim_newline (s : Text) : trim (s ++ ['\n']) = trim s := by
  unfold trim
  by_cases h : s.dropWhile isWhite = []
  · have h' : (s ++ ['\n']).dropWhile isWhite = [] := by
      rw [List.dropWhile_append, if_pos (by rw [h]; rfl)]
      decide
    rw [h, h']
  · have h' : (s ++ ['\n']).dropWhile isWhite = s.dropWhile isWhite ++ ['\n'] := by
      rw [List.dropWhile_append, if_neg (by simpa [List.isEmpty_iff] using h)]
    rw [h', List.reverse_append]
    have : (['\n'].reverse ++ (s.dropWhile isWhite).reverse).dropWhile isWhite = ((s.dropWhile isWhite).reverse).dropWhile isWhite := by
      simp only [List.reverse_singleton, List.singleton_append]
      rw [List.dropWhile_cons, if_pos (by decide)]
    rw [this]

/-- C99: gc-clean and the bytes the user types: only the first line counts. If it is UTF-8 text, gc-clean does what it does for that
answer; at the end of the input the answer is empty, so nothing is removed; if it is not UTF-8, gc-clean panics and every file is as
before. With `--force` nothing is read. -/
theorem C99_answers (root : FPath) (fs : FS) (rest : List UInt8) (hr : rest = [] ∨ rest.head? = some 10) :
    (∀ answer : Text, '\n' ∉ answer → gcClean root false (utf8 answer ++ rest) fs = Store.gcClean root false answer fs) ∧
    (∀ raw, 10 ∉ raw → ¬ IsUtf8 raw → gcClean root false (raw ++ rest) fs = (fs, .panic)) ∧
    gcClean root false [] fs = (fs, .success) ∧
    (∀ stdin answer, gcClean root true stdin fs = Store.gcClean root true answer fs) := by
  have hrest : rest.take 1 = [] ∨ rest.take 1 = [10] := by
    rcases hr with rfl | hr
    · exact Or.inl rfl
    · cases rest with
      | nil => cases hr
      | cons b r => simp only [List.head?_cons, Option.some.injEq] at hr; subst hr; exact Or.inr (by simp)
  refine ⟨fun answer ha => ?_, fun raw h10 hbad => ?_, rfl, fun stdin answer => rfl⟩
  · rw [utf8_eq]
    have hc : confirmationYesNo (encode answer ++ rest) = .done (Args.confirmationYesNo answer) := by
      unfold confirmationYesNo
      rw [firstLine_stop _ _ (newline_not_mem_encode ha) hr]
      rcases hrest with h | h
      · rw [h, List.append_nil, decode_encode]; rfl
      · have he : encode answer ++ [10] = encode (answer ++ ['\n']) := by
          rw [encode_append]; rfl
        rw [h, he, decode_encode]
        simp only [Run.unwrap, Run.bind, Args.confirmationYesNo]
        rw [trim_newline]
    unfold gcClean Store.gcClean
    rw [hc]
    cases Args.confirmationYesNo answer <;> rfl
  · have hd : decode (raw ++ rest.take 1) = none := by
      rw [decode_none_iff]
      rcases hrest with h | h
      · rw [h, List.append_nil]; exact not_isUtf8 hbad
      · rw [h]
        have := decode_none_of_suffix (s := ['\n']) (by decide) (not_isUtf8 hbad)
        simpa [encode, encodeChar_newline] using this
    unfold gcClean confirmationYesNo
    rw [firstLine_stop _ _ h10 hr, hd]
    rfl

/-- Concrete cases: a comment in UTF-8 is no obstacle; a byte that is not UTF-8 on the third line is a panic, also inside a comment; if
the second line is malformed, that is reported instead; an overlong encoding and half a surrogate pair are not UTF-8; answering with
`y` in Latin-1 quotes panics. -/
example :
    readAsCommands (Gcmd.parseLine fun _ => false) (utf8 "# größe\r\nAddEdge 1 2\nAddVertex 7".toList) = .done (.ok [.AddEdge 1 2, .AddVertex 7]) ∧
    readAsCommands (Gcmd.parseLine fun _ => false) (utf8 "AddEdge 1 2\n\n# gr".toList ++ [0xF6, 0xDF, 0x65, 10]) = .panicked ∧
    readAsCommands (Gcmd.parseLine fun _ => false) (utf8 "AddEdge 1 2\nAddEdge\n# gr".toList ++ [0xF6, 0xDF, 0x65, 10]) =
      .done (.error (.atLine 2 "AddEdge".toList)) ∧
    decode [0xC0, 0x80] = none ∧ decode [0xED, 0xA0, 0x80] = none ∧ decode [0xE2, 0x82, 0xAC] = some ['€'] ∧
    decode [0xF0, 0x9F, 0x98, 0x80] = some ['😀'] ∧
    confirmationYesNo (utf8 " yes\r\nno\n".toList) = .done true ∧ confirmationYesNo [0xAB, 0x79, 0xBB, 10] = .panicked := by
  decide +kernel
example : ¬ IsUtf8 [0x23, 0xF6, 0xDF] := by
  rintro ⟨t, ht⟩
  have := (C99_decoding [0x23, 0xF6, 0xDF] t).2 ht
  revert this
  rw [show decode [0x23, 0xF6, 0xDF] = none by decide +kernel]
  simp

end Bytes
end GC
