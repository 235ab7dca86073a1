/- Proofs about reading call by call. -/
import Verif.Spec.Reads
import Verif.Proofs.Bytes
import Verif.Proofs.Prog
import Verif.Proofs.Format
namespace GC
namespace Reads
open Text Format Bytes Store

theorem splitNewline_none {bs : Raw} : splitNewline bs = none ↔ (10 : UInt8) ∉ bs := by
  induction bs with
  | nil => simp [splitNewline]
  | cons b bs ih =>
    rw [splitNewline]
    by_cases h : b = 10
    · simp [h]
    · rw [if_neg h, Option.map_eq_none_iff, ih]
      simp [Ne.symm h]

theorem splitNewline_some {bs line rest : Raw} (h : splitNewline bs = some (line, rest)) :
    ∃ a, line = a ++ [10] ∧ (10 : UInt8) ∉ a ∧ bs = a ++ 10 :: rest := by
  induction bs generalizing line with
  | nil => cases h
  | cons b bs ih =>
    rw [splitNewline] at h
    by_cases hb : b = 10
    · rw [if_pos hb] at h
      cases h
      exact ⟨[], by simp [hb], by simp, by simp [hb]⟩
    · rw [if_neg hb, Option.map_eq_some_iff] at h
      obtain ⟨⟨l, r⟩, h1, h2⟩ := h
      cases h2
      obtain ⟨a, h3, h4, h5⟩ := ih h1
      refine ⟨b :: a, by rw [h3]; rfl, ?_, by rw [h5]; rfl⟩
      simp only [List.mem_cons, not_or]
      exact ⟨fun e => hb e.symm, h4⟩

/-- The bytes a reader can still hand out. -/
def pending (r : Reader) : Raw := r.buffer ++ delivered r.events

/-- What `read_until` does. -/
theorem readUntil_spec (cur buffer : Raw) (es : List Event) :
    (∃ a rest r, (10 : UInt8) ∉ a ∧ buffer ++ delivered es = a ++ 10 :: rest ∧ readUntil cur buffer es = (some (cur ++ a ++ [10]), r) ∧
      pending r = rest ∧ (HasFailure r.events ↔ HasFailure es)) ∨
    ((10 : UInt8) ∉ buffer ++ delivered es ∧
      ((HasFailure es ∧ (readUntil cur buffer es).1 = none) ∨
       (¬ HasFailure es ∧ readUntil cur buffer es = (some (cur ++ (buffer ++ delivered es)), ⟨[], []⟩)))) := by
  induction es generalizing cur buffer with
  | nil =>
    cases hs : splitNewline buffer with
    | some p =>
      obtain ⟨line, rest⟩ := p
      obtain ⟨a, h1, h2, h3⟩ := splitNewline_some hs
      left
      refine ⟨a, rest, ⟨rest, []⟩, h2, by simp [delivered, h3], ?_, by simp [pending, delivered], Iff.rfl⟩
      rw [readUntil, hs, h1, List.append_assoc]
    | none =>
      right
      refine ⟨by simpa [delivered] using splitNewline_none.1 hs, .inr ⟨by simp [HasFailure], ?_⟩⟩
      rw [readUntil, hs]
      simp [delivered]
  | cons e es ih =>
    cases hs : splitNewline buffer with
    | some p =>
      obtain ⟨line, rest⟩ := p
      obtain ⟨a, h1, h2, h3⟩ := splitNewline_some hs
      left
      refine ⟨a, rest ++ delivered (e :: es), ⟨rest, e :: es⟩, h2, by simp [h3], ?_, rfl, Iff.rfl⟩
      cases e <;> rw [readUntil, hs, h1, List.append_assoc]
    | none =>
      have hb := splitNewline_none.1 hs
      cases e with
      | failed =>
        right
        refine ⟨by simpa [delivered] using hb, .inl ⟨by simp [HasFailure], ?_⟩⟩
        rw [readUntil, hs]
      | interrupted =>
        have e1 : readUntil cur buffer (.interrupted :: es) = readUntil (cur ++ buffer) [] es := by rw [readUntil, hs]
        have e2 : HasFailure (.interrupted :: es) ↔ HasFailure es := by simp [HasFailure]
        rw [e1, e2]
        simp only [delivered]
        rcases ih (cur ++ buffer) [] with ⟨a, rest, r, h1, h2, h3, h4, h5⟩ | ⟨h1, h2⟩
        · left
          refine ⟨buffer ++ a, rest, r, by simp [hb, h1], ?_, by rw [h3]; simp, h4, h5⟩
          rw [List.nil_append] at h2
          rw [h2, List.append_assoc]
        · right
          rw [List.nil_append] at h1 h2
          refine ⟨by simp [hb, h1], ?_⟩
          rwa [List.append_assoc] at h2
      | data b bs =>
        have e1 : readUntil cur buffer (.data b bs :: es) = readUntil (cur ++ buffer) (b :: bs) es := by rw [readUntil, hs]
        have e2 : HasFailure (.data b bs :: es) ↔ HasFailure es := by simp [HasFailure]
        rw [e1, e2]
        simp only [delivered]
        rcases ih (cur ++ buffer) (b :: bs) with ⟨a, rest, r, h1, h2, h3, h4, h5⟩ | ⟨h1, h2⟩
        · left
          refine ⟨buffer ++ a, rest, r, by simp [hb, h1], ?_, by rw [h3]; simp, h4, h5⟩
          rw [h2, List.append_assoc]
        · right
          refine ⟨?_, ?_⟩
          · rw [List.mem_append]
            exact fun h => h.elim hb h1
          · rwa [List.append_assoc] at h2

/-- The loop panics after the complete lines. -/
def thenFail (r : Run (Except ReadError (List GraphCommand))) : Run (Except ReadError (List GraphCommand)) :=
  match r with
  | .done (.ok _) => .panicked
  | .done (.error e) => .done (.error e)
  | .panicked => .panicked
  | .running => .running

/-- The complete lines of a text. -/
def complete (cur : Raw) : Raw → List Raw
  | [] => []
  | b :: bs => if b = 10 then (cur ++ [b]) :: complete [] bs else complete (cur ++ [b]) bs

theorem complete_skip (bs : Raw) (h : (10 : UInt8) ∉ bs) (cur rest : Raw) : complete cur (bs ++ rest) = complete (cur ++ bs) rest := by
  induction bs generalizing cur with
  | nil => simp
  | cons b bs ih =>
    rw [List.cons_append, complete, if_neg (by rintro rfl; exact h (by simp)), ih (fun hm => h (by simp [hm]))]
    simp

theorem complete_line {a : Raw} (h : (10 : UInt8) ∉ a) (rest : Raw) : complete [] (a ++ 10 :: rest) = (a ++ [10]) :: complete [] rest := by
  rw [complete_skip _ h, complete, if_pos rfl]; simp

theorem complete_none {a : Raw} (h : (10 : UInt8) ∉ a) : complete [] a = [] := by
  have := complete_skip a h [] []
  rw [List.append_nil] at this
  rw [this]; rfl

theorem rawLines_line {a : Raw} (h : (10 : UInt8) ∉ a) (rest : Raw) : rawLines [] (a ++ 10 :: rest) = (a ++ [10]) :: rawLines [] rest := by
  rw [rawLines_skip _ h, rawLines, if_pos rfl]; simp

/-- The lines of a text with something behind it: first its complete lines. -/
theorem rawLines_complete (cur p more : Raw) : ∃ tail, rawLines cur (p ++ more) = complete cur p ++ tail := by
  induction p generalizing cur with
  | nil => exact ⟨_, rfl⟩
  | cons b p ih =>
    rw [List.cons_append, rawLines, complete]
    split
    · obtain ⟨t, ht⟩ := ih []
      exact ⟨t, by rw [ht]; rfl⟩
    · exact ih _

theorem isEmpty_snoc (a : Raw) (b : UInt8) : (a ++ [b]).isEmpty = false := by simp

variable {parse : Text → Run (Except Text GraphCommand)}

/-- One round on a line that was read. -/
theorem readStep_line {i : Nat} {r r' : Reader} {res : List GraphCommand} {raw : Raw} (hne : raw.isEmpty = false)
    (h : readUntil [] r.buffer r.events = (some raw, r')) :
    readStep parse (i, r, res) = Prog.bind (Prog.lift (Run.unwrap (lineOf raw))) fun line =>
        if !line.isEmpty && !isComment line then
          Prog.bind (Prog.lift (parse line)) fun r =>
            match r with
            | .ok command => Prog.ret (.inl (i + 1, r', res ++ [command]))
            | .error msg => Prog.ret (.inr (.error (.atLine (i + 1) msg)))
        else Prog.ret (.inl (i + 1, r', res)) := by
  unfold readStep
  simp only [h]
  funext n
  show (if raw.isEmpty = true then _ else _ : Prog _) n = _
  rw [if_neg (by rw [hne]; simp)]
  rfl

/-- The loop ends like this computation. -/
def LoopEnds (parse : Text → Run (Except Text GraphCommand)) (s : Nat × Reader × List GraphCommand) :
    Run (Except ReadError (List GraphCommand)) → Prop
  | .done x => LoopTo (readStep parse) s x
  | .panicked => LoopPanics (readStep parse) s
  | .running => False

theorem LoopEnds.next {s s' : Nat × Reader × List GraphCommand} {q} (h1 : Returns (readStep parse s) (.inl s'))
    (h2 : LoopEnds parse s' q) : LoopEnds parse s q := by
  cases q with
  | running => exact h2
  | done x => exact LoopTo.next h1 h2
  | panicked => exact LoopPanics.next h1 h2

theorem LoopEnds.endsLike {s : Nat × Reader × List GraphCommand} {q} (h : LoopEnds parse s q) :
    EndsLike (Prog.loop (readStep parse) s) q := by
  cases q with
  | running => exact h
  | done x => exact LoopTo.returns h
  | panicked => exact LoopPanics.panics h

/-- What the loop does, by the line it reads first. -/
theorem loop_line (hp : ∀ l, parse l ≠ .running) {i : Nat} {r r' : Reader} {res : List GraphCommand} {raw : Raw} (hne : raw.isEmpty = false)
    (h : readUntil [] r.buffer r.events = (some raw, r'))
    (k : Nat → List GraphCommand → Run (Except ReadError (List GraphCommand)))
    (ih : ∀ res', LoopEnds parse (i + 1, r', res') (k (i + 1) res')) :
    LoopEnds parse (i, r, res)
      ((Run.unwrap (lineOf raw)).bind fun line =>
        if !line.isEmpty && !isComment line then
          (parse line).bind fun x =>
            match x with
            | .ok command => k (i + 1) (res ++ [command])
            | .error msg => .done (.error (.atLine (i + 1) msg))
        else k (i + 1) res) := by
  cases hl : lineOf raw with
  | none =>
    refine LoopPanics.stop ?_
    rw [readStep_line hne h, hl]
    exact Panics.bind_left ⟨0, fun _ _ => rfl⟩
  | some line =>
    have e := readStep_line (parse := parse) (i := i) (res := res) hne h
    rw [hl] at e
    simp only [Run.unwrap, Run.bind_done]
    by_cases hc : (!line.isEmpty && !isComment line) = true
    · rw [if_pos hc]
      cases hpl : parse line with
      | running => exact absurd hpl (hp line)
      | panicked =>
        refine LoopPanics.stop ?_
        rw [e]
        refine Panics.bind_right (Returns.lift_done _) ?_
        rw [if_pos hc, hpl]
        exact Panics.bind_left ⟨0, fun _ _ => rfl⟩
      | done x =>
        cases x with
        | error m =>
          refine LoopTo.stop ?_
          rw [e]
          refine Returns.bind (Returns.lift_done _) ?_
          rw [if_pos hc, hpl]
          exact Returns.bind (Returns.lift_done _) (Returns.ret _)
        | ok c =>
          refine LoopEnds.next ?_ (ih _)
          rw [e]
          refine Returns.bind (Returns.lift_done _) ?_
          rw [if_pos hc, hpl]
          exact Returns.bind (Returns.lift_done _) (Returns.ret _)
    · rw [if_neg hc]
      refine LoopEnds.next ?_ (ih _)
      rw [e]
      refine Returns.bind (Returns.lift_done _) ?_
      rw [if_neg hc]
      exact Returns.ret _

/-- No byte is left. -/
theorem loop_empty {i : Nat} {res : List GraphCommand} {r r' : Reader} (h : readUntil [] r.buffer r.events = (some [], r')) :
    LoopEnds parse (i, r, res) (.done (.ok res)) := by
  refine LoopTo.stop ?_
  unfold readStep
  simp only [h, Run.unwrap]
  exact Returns.bind (Returns.lift_done _) (Returns.ret _)

/-- Reading without a failure. -/
theorem loop_whole (hp : ∀ l, parse l ≠ .running) (n : Nat) (i : Nat) (r : Reader) (res : List GraphCommand) (hn : (pending r).length = n)
    (hf : ¬ HasFailure r.events) : LoopEnds parse (i, r, res) (Bytes.readLoop parse i (rawLines [] (pending r)) res) := by
  induction n using Nat.strongRecOn generalizing i r res with
  | _ n ih =>
    rcases readUntil_spec [] r.buffer r.events with ⟨a, rest, r', h1, h2, h3, h4, h5⟩ | ⟨h1, ⟨h2, _⟩ | ⟨_, h2⟩⟩
    · have hpend : pending r = a ++ 10 :: rest := h2
      rw [hpend, rawLines_line h1, Bytes.readLoop]
      rw [List.nil_append] at h3
      refine loop_line hp (isEmpty_snoc a 10) h3 (fun j res' => Bytes.readLoop parse j (rawLines [] rest) res') ?_
      intro res'
      have := ih (pending r').length (by rw [← hn, hpend, h4]; simp; omega) (i + 1) r' res' rfl (fun h => hf (h5.1 h))
      rw [h4] at this
      exact this
    · exact absurd h2 hf
    · rw [List.nil_append] at h2
      have hpend : pending r = r.buffer ++ delivered r.events := rfl
      rw [← hpend] at h1 h2
      by_cases he : pending r = []
      · rw [he] at h2 ⊢
        exact loop_empty h2
      · have hne : (pending r).isEmpty = false := by
          cases hc : pending r with
          | nil => exact absurd hc he
          | cons => rfl
        have e1 : rawLines [] (pending r) = [pending r] := by
          have := rawLines_skip (pending r) h1 [] []
          rw [List.append_nil, List.nil_append] at this
          rw [this, rawLines, hne]; rfl
        rw [e1, Bytes.readLoop]
        refine loop_line hp hne h2 (fun j res' => Bytes.readLoop parse j [] res') ?_
        intro res'
        exact loop_empty (r' := ⟨[], []⟩) rfl

theorem thenFail_bind (o : Option Text) (f : Text → Run (Except ReadError (List GraphCommand))) :
    thenFail ((Run.unwrap o).bind f) = (Run.unwrap o).bind fun x => thenFail (f x) := by
  cases o <;> rfl

/-- Reading with a failure. -/
theorem loop_failed (hp : ∀ l, parse l ≠ .running) (n : Nat) (i : Nat) (r : Reader) (res : List GraphCommand) (hn : (pending r).length = n)
    (hf : HasFailure r.events) : LoopEnds parse (i, r, res) (thenFail (Bytes.readLoop parse i (complete [] (pending r)) res)) := by
  induction n using Nat.strongRecOn generalizing i r res with
  | _ n ih =>
    rcases readUntil_spec [] r.buffer r.events with ⟨a, rest, r', h1, h2, h3, h4, h5⟩ | ⟨h1, ⟨_, h2⟩ | ⟨h2, _⟩⟩
    · have hpend : pending r = a ++ 10 :: rest := h2
      rw [hpend, complete_line h1, Bytes.readLoop, thenFail_bind]
      rw [List.nil_append] at h3
      have := loop_line hp (isEmpty_snoc a 10) (i := i) (res := res) h3
        (fun j res' => thenFail (Bytes.readLoop parse j (complete [] rest) res')) (by
        intro res'
        have := ih (pending r').length (by rw [← hn, hpend, h4]; simp; omega) (i + 1) r' res' rfl (h5.2 hf)
        rw [h4] at this
        exact this)
      refine cast ?_ this
      congr 2
      funext line
      split
      · cases parse line with
        | running => rfl
        | panicked => rfl
        | done x => cases x <;> rfl
      · rfl
    · have hpend : pending r = r.buffer ++ delivered r.events := rfl
      rw [← hpend] at h1
      rw [complete_none h1]
      refine LoopPanics.stop ?_
      unfold readStep
      simp only [h2, Run.unwrap]
      exact Panics.bind_left ⟨0, fun _ _ => rfl⟩
    · exact absurd hf h2

end Reads
end GC
