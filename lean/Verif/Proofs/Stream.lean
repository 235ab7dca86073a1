/- Proofs about programs that print while they run, and about a standard output that may break. -/
import Verif.Spec.Stream
import Verif.Proofs.Prog
namespace GC
namespace Stream
open Text Main
variable {α β σ : Type}

/-! ### Standard output -/

/-- How many characters can arrive in all. -/
def Stdout.cap (o : Stdout) : Option Nat := o.room.map (· + o.arrived.length)

/-- `r` is what writing `t` to `o` gives: everything arrived or is in the buffer, or all that can arrive has arrived and that is not all. -/
structure Wrote (o : Stdout) (t : Text) (r : Stdout × Bool) : Prop where
  cap : r.1.cap = o.cap
  ok : r.2 = true → r.1.arrived ++ r.1.buffer = o.arrived ++ o.buffer ++ t
  fail : r.2 = false → r.1.room = some 0 ∧ r.1.arrived <+: o.arrived ++ o.buffer ++ t ∧ r.1.arrived.length < (o.arrived ++ o.buffer ++ t).length
  grows : o.arrived <+: r.1.arrived

theorem wrote_nothing (o : Stdout) : Wrote o [] (o, true) := ⟨rfl, by simp, by simp, List.prefix_refl _⟩

/-- One write after another that succeeded. -/
theorem Wrote.trans {o o1 : Stdout} {t1 t2 : Text} {r : Stdout × Bool} (h1 : Wrote o t1 (o1, true)) (h2 : Wrote o1 t2 r) :
    Wrote o (t1 ++ t2) r := by
  have e := h1.ok rfl
  dsimp only at e
  refine ⟨h2.cap.trans h1.cap, fun hr => ?_, fun hr => ?_, h1.grows.trans h2.grows⟩
  · rw [h2.ok hr, e, List.append_assoc _ t1]
  · have := h2.fail hr
    rw [e] at this
    simpa only [List.append_assoc] using this

/-- Nothing more is written after a failure. -/
theorem Wrote.failed {o o1 : Stdout} {t1 t2 : Text} (h1 : Wrote o t1 (o1, false)) : Wrote o (t1 ++ t2) (o1, false) := by
  obtain ⟨h2, h3, h4⟩ := h1.fail rfl
  refine ⟨h1.cap, by simp, fun _ => ⟨h2, ?_, ?_⟩, h1.grows⟩
  · exact h3.trans ⟨t2, by simp⟩
  · simp only [List.length_append] at h4 ⊢
    omega

/-- Writing directly, when the buffer is empty. -/
theorem wrote_direct (t : Text) (o : Stdout) (hb : o.buffer = []) : Wrote o t (Stdout.writeAll t o) := by
  obtain ⟨arr, buf, room⟩ := o
  dsimp only at hb
  subst hb
  unfold Stdout.writeAll
  cases room with
  | none => exact ⟨rfl, by simp, by simp, ⟨t, rfl⟩⟩
  | some r =>
    dsimp only
    split
    · rename_i h
      refine ⟨?_, by simp, by simp, ⟨t, rfl⟩⟩
      simp only [Stdout.cap, Option.map_some, List.length_append, Option.some.injEq]
      omega
    · rename_i h
      have hl : (t.take r).length = r := by rw [List.length_take]; omega
      refine ⟨?_, by simp, fun _ => ⟨rfl, ?_, ?_⟩, ⟨_, rfl⟩⟩
      · simp only [Stdout.cap, Option.map_some, List.length_append, Option.some.injEq, hl]
        omega
      · simpa using List.take_prefix r t
      · simp only [List.length_append, List.append_nil, hl]
        omega

theorem wrote_flush (o : Stdout) : Wrote o [] o.flush ∧ (o.flush.2 = true → o.flush.1.buffer = []) := by
  obtain ⟨arr, buf, room⟩ := o
  unfold Stdout.flush Stdout.writeAll
  cases room with
  | none => exact ⟨⟨rfl, by simp, by simp, ⟨buf, rfl⟩⟩, by simp⟩
  | some r =>
    dsimp only
    split
    · rename_i o' heq
      split at heq
      · rename_i h
        injection heq with heq _
        subst heq
        refine ⟨⟨?_, by simp, by simp, ⟨buf, rfl⟩⟩, by simp⟩
        simp only [Stdout.cap, Option.map_some, List.length_append, Option.some.injEq]
        omega
      · injection heq with _ heq
        cases heq
    · rename_i o' heq
      split at heq
      · injection heq with _ heq
        cases heq
      · rename_i h
        injection heq with heq _
        subst heq
        have hl : (buf.take r).length = r := by rw [List.length_take]; omega
        refine ⟨⟨?_, by simp, fun _ => ⟨rfl, ?_, ?_⟩, ⟨_, rfl⟩⟩, by simp⟩
        · simp only [Stdout.cap, Option.map_some, List.length_append, Option.some.injEq, hl]
          omega
        · simpa using List.take_prefix r buf
        · simp only [List.length_append, List.append_nil, hl]
          omega

theorem wrote_append (t : Text) (o : Stdout) : Wrote o t ({ o with buffer := o.buffer ++ t }, true) :=
  ⟨rfl, by simp, by simp, List.prefix_refl _⟩

theorem Wrote.andThen {o : Stdout} {t1 t2 : Text} {r : Stdout × Bool} {f : Stdout → Stdout × Bool} (h : Wrote o t1 r)
    (hf : ∀ o1, r = (o1, true) → Wrote o1 t2 (f o1)) : Wrote o (t1 ++ t2) (Stdout.andThen r f) := by
  obtain ⟨o1, ok⟩ := r
  cases ok with
  | true => exact h.trans (hf o1 rfl)
  | false => exact h.failed

theorem andThen_true {r : Stdout × Bool} {f : Stdout → Stdout × Bool} (h : (Stdout.andThen r f).2 = true) :
    ∃ o1, r = (o1, true) ∧ Stdout.andThen r f = f o1 ∧ (f o1).2 = true := by
  obtain ⟨o1, ok⟩ := r
  cases ok with
  | true => exact ⟨o1, rfl, rfl, h⟩
  | false => cases h

theorem wrote_buffered (t : Text) (o : Stdout) : Wrote o t (Stdout.buffered t o) := by
  unfold Stdout.buffered
  split
  · exact wrote_append t o
  · rename_i hlen
    rw [← List.nil_append t]
    split
    · obtain ⟨h1, h2⟩ := wrote_flush o
      refine h1.andThen fun o1 he => ?_
      rw [he] at h2
      split
      · exact wrote_direct _ o1 (h2 rfl)
      · exact wrote_append _ o1
    · rename_i h3
      refine (wrote_nothing o).andThen fun o1 he => ?_
      injection he with he _
      subst he
      split
      · rename_i h6
        refine wrote_direct _ o ?_
        have : lineCapacity = 1024 := rfl
        simp only [List.nil_append] at *
        exact List.length_eq_zero_iff.1 (by omega)
      · exact wrote_append _ o

theorem splitLines_append (t : Text) : (splitLines t).1 ++ (splitLines t).2 = t := by
  induction t with
  | nil => rfl
  | cons c t ih =>
    unfold splitLines
    dsimp only
    split
    · simp [ih]
    · rename_i h
      simp only [not_or, Classical.not_not] at h
      rw [h.2] at ih
      simpa using ih

theorem splitLines_newline {t : Text} (h : t.getLast? = some '\n') : splitLines t = (t, []) := by
  induction t with
  | nil => cases h
  | cons c t ih =>
    unfold splitLines
    dsimp only
    cases t with
    | nil =>
      simp only [List.getLast?_singleton, Option.some.injEq] at h
      subst h
      simp [splitLines]
    | cons d t =>
      rw [List.getLast?_cons_cons] at h
      rw [ih h]
      simp

theorem writeAll_buffer (t : Text) (o : Stdout) : (Stdout.writeAll t o).1.buffer = o.buffer := by
  unfold Stdout.writeAll
  split
  · rfl
  · split <;> rfl

theorem wrote_lines (t : Text) (o : Stdout) :
    Wrote o t (if o.buffer = [] then Stdout.writeAll t o else Stdout.andThen (Stdout.buffered t o) Stdout.flush) ∧
    ∀ o1, (if o.buffer = [] then Stdout.writeAll t o else Stdout.andThen (Stdout.buffered t o) Stdout.flush) = (o1, true) → o1.buffer = [] := by
  split
  · rename_i hb
    refine ⟨wrote_direct t o hb, fun o1 h => ?_⟩
    have := writeAll_buffer t o
    rw [h, hb] at this
    exact this
  · constructor
    · have := (wrote_buffered t o).andThen (t2 := []) (f := Stdout.flush) fun o1 _ => (wrote_flush o1).1
      rwa [List.append_nil] at this
    · intro o1 h
      obtain ⟨o2, _, h2, h3⟩ := andThen_true (show (Stdout.andThen (Stdout.buffered t o) Stdout.flush).2 = true by rw [h])
      rw [h] at h2
      have := (wrote_flush o2).2 h3
      rwa [← h2] at this

theorem wrote_write (t : Text) (o : Stdout) :
    Wrote o t (Stdout.write t o) ∧ (t.getLast? = some '\n' → (Stdout.write t o).2 = true → (Stdout.write t o).1.buffer = []) := by
  unfold Stdout.write
  split
  · rename_i h0
    constructor
    · have := (show Wrote o [] (if o.buffer.getLast? = some '\n' then o.flush else (o, true)) by
        split
        · exact (wrote_flush o).1
        · exact wrote_nothing o).andThen (t2 := t) (f := Stdout.buffered t) fun o1 _ => wrote_buffered t o1
      rwa [List.nil_append] at this
    · intro h
      rw [splitLines_newline h] at h0
      rw [show t = [] from h0] at h
      cases h
  · constructor
    · have := (wrote_lines (splitLines t).1 o).1.andThen (t2 := (splitLines t).2) (f := Stdout.buffered (splitLines t).2)
        fun o1 _ => wrote_buffered _ o1
      rwa [splitLines_append] at this
    · intro h hok
      obtain ⟨o1, h1, h2, h3⟩ := andThen_true hok
      have hb := (wrote_lines (splitLines t).1 o).2 o1 h1
      rw [h2, splitLines_newline h]
      unfold Stdout.buffered
      rw [hb, if_pos (by simp [lineCapacity])]
      simp

/-- The last piece, if there is one, ends with a newline. -/
def Ended (ps : List Text) : Prop := ∀ p, ps.getLast? = some p → p.getLast? = some '\n'

theorem wrote_writes (ps : List Text) (o : Stdout) : Wrote o ps.flatten (Stdout.writes ps o) ∧
    (Ended ps → ps ≠ [] ∨ o.buffer = [] → (Stdout.writes ps o).2 = true → (Stdout.writes ps o).1.buffer = []) := by
  induction ps generalizing o with
  | nil => exact ⟨wrote_nothing o, fun _ h _ => by simpa [Stdout.writes] using h⟩
  | cons t ps ih =>
    obtain ⟨h1, h2⟩ := wrote_write t o
    unfold Stdout.writes
    refine ⟨by rw [List.flatten_cons]; exact h1.andThen fun o1 _ => (ih o1).1, fun he _ hok => ?_⟩
    obtain ⟨o1, e1, e2, e3⟩ := andThen_true hok
    rw [e2]
    refine (ih o1).2 (fun p hp => he p ?_) ?_ e3
    · rw [List.getLast?_cons, hp]; rfl
    · cases ps with
      | nil =>
        rw [e1] at h2
        exact .inr (h2 (he t (by simp)) rfl)
      | cons => exact .inl (by simp)

theorem arrived_cases {ps : List Text} {room : Option Nat} {o : Stdout} {ok : Bool} (h : Stdout.writes ps (.fresh room) = (o, ok)) :
    (ok = true ∧ o.arrived ++ o.buffer = ps.flatten ∧ o.cap = room) ∨
    (ok = false ∧ Overfull room ps.flatten ∧ o.arrived = takeRoom room ps.flatten ∧ o.room = some 0) := by
  have hw := (wrote_writes ps (.fresh room)).1
  rw [h] at hw
  have hcap : o.cap = room := by
    have := hw.cap
    dsimp only at this
    rw [this]
    cases room <;> rfl
  cases ok with
  | true => exact .inl ⟨rfl, by simpa [Stdout.fresh] using hw.ok rfl, hcap⟩
  | false =>
    obtain ⟨h1, h2, h3⟩ := hw.fail rfl
    simp only [Stdout.fresh, List.nil_append] at h1 h2 h3
    rw [Stdout.cap, h1] at hcap
    simp only [Option.map_some, Nat.zero_add] at hcap
    refine .inr ⟨rfl, ⟨_, hcap.symm, h3⟩, ?_, h1⟩
    rw [← hcap]
    exact List.prefix_iff_eq_take.1 h2

theorem cap_bound {o : Stdout} {r : Nat} (h : o.cap = some r) : o.arrived.length ≤ r := by
  unfold Stdout.cap at h
  cases hr : o.room with
  | none => rw [hr] at h; cases h
  | some k => rw [hr] at h; simp at h; omega

/-- After the failed or final flush. -/
theorem flush_arrived {ps : List Text} {room : Option Nat} {o : Stdout} {ok : Bool} (h : Stdout.writes ps (.fresh room) = (o, ok)) :
    o.flush.1.arrived = takeRoom room ps.flatten := by
  obtain ⟨hf, hf2⟩ := wrote_flush o
  rcases arrived_cases h with ⟨_, h1, h2⟩ | ⟨_, _, h3, h4⟩
  · have hcap := hf.cap.trans h2
    cases hok : o.flush.2 with
    | true =>
      have e := hf.ok hok
      rw [hf2 hok, List.append_nil, List.append_nil, h1] at e
      rw [e]
      cases room with
      | none => rfl
      | some r =>
        have := cap_bound hcap
        rw [e] at this
        exact (List.take_of_length_le this).symm
    | false =>
      obtain ⟨e1, e2, e3⟩ := hf.fail hok
      rw [List.append_nil, h1] at e2
      cases room with
      | none => rw [Stdout.cap, e1] at hcap; cases hcap
      | some r =>
        rw [Stdout.cap, e1] at hcap
        simp only [Option.map_some, Nat.zero_add, Option.some.injEq] at hcap
        rw [takeRoom, ← hcap]
        exact List.prefix_iff_eq_take.1 e2
  · rw [← h3]
    have hcap := hf.cap
    obtain ⟨t, ht⟩ := hf.grows
    have : o.flush.1.arrived.length = o.arrived.length := by
      have hc : o.cap = some o.arrived.length := by rw [Stdout.cap, h4]; simp
      rw [hc] at hcap
      have := cap_bound hcap
      have := congrArg List.length ht
      rw [List.length_append] at this
      omega
    have ht2 := congrArg List.length ht
    rw [List.length_append] at ht2
    have : t = [] := List.length_eq_zero_iff.1 (by omega)
    rw [← ht, this, List.append_nil]

/-- A finished program whose output ends with a newline. -/
theorem onStdout_done {ps : List Text} (he : Ended ps) (room : Option Nat) [Decidable (Overfull room ps.flatten)] :
    onStdout ⟨ps, .done ()⟩ (.fresh room) =
      (takeRoom room ps.flatten, if Overfull room ps.flatten then .panicked else .done ()) := by
  unfold onStdout
  have hb := (wrote_writes ps (.fresh room)).2 he (.inr rfl)
  generalize hw : Stdout.writes ps (.fresh room) = r at hb
  obtain ⟨o, ok⟩ := r
  have hf := flush_arrived hw
  rcases arrived_cases hw with ⟨h0, h1, h2⟩ | ⟨h0, h1, _⟩
  · subst h0
    dsimp only
    rw [hf, if_neg]
    rintro ⟨r, rfl, hr⟩
    rw [hb rfl, List.append_nil] at h1
    have := cap_bound h2
    rw [h1] at this
    omega
  · subst h0
    dsimp only
    rw [hf, if_pos h1]

/-- A program that panicked. -/
theorem onStdout_panicked (ps : List Text) (room : Option Nat) :
    onStdout ⟨ps, .panicked⟩ (.fresh room) = (takeRoom room ps.flatten, .panicked) := by
  unfold onStdout
  generalize hw : Stdout.writes ps (.fresh room) = r
  obtain ⟨o, ok⟩ := r
  have hf := flush_arrived hw
  cases ok <;> (dsimp only; rw [hf])

theorem takeRoom_prefix (room : Option Nat) (t : Text) : takeRoom room t <+: t := by
  cases room with
  | none => exact List.prefix_refl _
  | some r => exact List.take_prefix _ _

/-- At any moment a beginning of what was printed has arrived. -/
theorem onStdout_prefix (r : Sent Unit) (room : Option Nat) : (onStdout r (.fresh room)).1 <+: r.pieces.flatten := by
  unfold onStdout
  generalize hw : Stdout.writes r.pieces (.fresh room) = s
  obtain ⟨o, ok⟩ := s
  have hf := flush_arrived hw
  cases ok with
  | false => dsimp only; rw [hf]; exact takeRoom_prefix _ _
  | true =>
    dsimp only
    split
    · rcases arrived_cases hw with ⟨_, h1, _⟩ | ⟨h0, _⟩
      · exact ⟨_, h1⟩
      · cases h0
    · dsimp only; rw [hf]; exact takeRoom_prefix _ _

/-! ### Programs that print -/

/-- More fuel does not change what was printed, nor an outcome once there is one. -/
def Steady (j : Job α) : Prop := ∀ n m, n ≤ m → (j n).pieces <+: (j m).pieces ∧ ((j n).outcome ≠ .running → j m = j n)

namespace Job

theorem bind_done {p : Job α} {f : α → Job β} {n : Nat} {ps : List Text} {a : α} (h : p n = ⟨ps, .done a⟩) :
    bind p f n = ⟨ps ++ (f a n).pieces, (f a n).outcome⟩ := by unfold bind; rw [h]
theorem bind_panicked {p : Job α} {f : α → Job β} {n : Nat} {ps : List Text} (h : p n = ⟨ps, .panicked⟩) :
    bind p f n = ⟨ps, .panicked⟩ := by unfold bind; rw [h]
theorem bind_running {p : Job α} {f : α → Job β} {n : Nat} {ps : List Text} (h : p n = ⟨ps, .running⟩) :
    bind p f n = ⟨ps, .running⟩ := by unfold bind; rw [h]

theorem printAll_eq (ts : List Text) (n : Nat) : printAll ts n = ⟨ts, .done ()⟩ := by
  induction ts with
  | nil => rfl
  | cons t ts ih => rw [printAll, bind_done (ps := [t]) (a := ()) rfl, ih]; rfl

theorem sayAll_eq (ts : List Text) (n : Nat) : sayAll ts n = ⟨ts.map (· ++ ['\n']), .done ()⟩ := by
  induction ts with
  | nil => rfl
  | cons t ts ih => rw [sayAll, bind_done (ps := [t ++ ['\n']]) (a := ()) rfl, ih]; rfl

theorem steady_ret (a : α) : Steady (ret a) := fun _ _ _ => ⟨List.prefix_refl _, fun _ => rfl⟩
theorem steady_print (t : Text) : Steady (print t) := fun _ _ _ => ⟨List.prefix_refl _, fun _ => rfl⟩
theorem steady_say (t : Text) : Steady (say t) := steady_print _

theorem steady_lift {p : Prog α} (h : Mono p) : Steady (lift p) := fun n m hnm =>
  ⟨List.prefix_refl _, fun hr => by unfold lift; rw [h n m hnm hr]⟩

theorem steady_printAll (ts : List Text) : Steady (printAll ts) := fun n m _ => by
  rw [printAll_eq, printAll_eq]; exact ⟨List.prefix_refl _, fun _ => rfl⟩
theorem steady_sayAll (ts : List Text) : Steady (sayAll ts) := fun n m _ => by
  rw [sayAll_eq, sayAll_eq]; exact ⟨List.prefix_refl _, fun _ => rfl⟩

theorem steady_bind {p : Job α} {f : α → Job β} (hp : Steady p) (hf : ∀ a, Steady (f a)) : Steady (bind p f) := by
  intro n m hnm
  obtain ⟨h1, h2⟩ := hp n m hnm
  rcases e : p n with ⟨ps, _ | _ | a⟩
  · rw [bind_running e]
    rw [e] at h1
    refine ⟨h1.trans ?_, fun h => absurd rfl h⟩
    rcases e' : p m with ⟨qs, _ | _ | b⟩
    · rw [bind_running e']; exact List.prefix_refl _
    · rw [bind_panicked e']; exact List.prefix_refl _
    · rw [bind_done e']; exact List.prefix_append _ _
  · have := h2 (by rw [e]; simp)
    rw [e] at this
    rw [bind_panicked e, bind_panicked this]
    exact ⟨List.prefix_refl _, fun _ => rfl⟩
  · have := h2 (by rw [e]; simp)
    rw [e] at this
    rw [bind_done e, bind_done this]
    obtain ⟨h3, h4⟩ := hf a n m hnm
    exact ⟨(List.prefix_append_right_inj _).2 h3, fun h => by rw [h4 h]⟩

theorem steady_loopAux {step : σ → Job (σ ⊕ β)} (hs : ∀ s, Steady (step s)) (f f' k k' : Nat) (hf : f ≤ f') (hk : k ≤ k') (s : σ) :
    (loopAux step f k s).pieces <+: (loopAux step f' k' s).pieces ∧
      ((loopAux step f k s).outcome ≠ .running → loopAux step f' k' s = loopAux step f k s) := by
  induction k generalizing k' s with
  | zero => exact ⟨List.nil_prefix, fun h => absurd rfl h⟩
  | succ k ih =>
    obtain ⟨k', rfl⟩ : ∃ j, k' = j + 1 := ⟨k' - 1, by omega⟩
    obtain ⟨h1, h2⟩ := hs s f f' hf
    unfold loopAux
    rcases e : step s f with ⟨ps, _ | _ | s' | b⟩
    · rw [e] at h1
      refine ⟨h1.trans ?_, fun h => absurd rfl h⟩
      rcases e' : step s f' with ⟨qs, _ | _ | s' | b⟩
      · exact List.prefix_refl _
      · exact List.prefix_refl _
      · exact List.prefix_append _ _
      · exact List.prefix_refl _
    · have := h2 (by rw [e]; simp)
      rw [e] at this
      rw [this]
      exact ⟨List.prefix_refl _, fun _ => rfl⟩
    · have := h2 (by rw [e]; simp)
      rw [e] at this
      rw [this]
      dsimp only
      obtain ⟨h3, h4⟩ := ih k' (by omega) s'
      exact ⟨(List.prefix_append_right_inj _).2 h3, fun h => by rw [h4 h]⟩
    · have := h2 (by rw [e]; simp)
      rw [e] at this
      rw [this]
      exact ⟨List.prefix_refl _, fun _ => rfl⟩

theorem steady_loop {step : σ → Job (σ ⊕ β)} (hs : ∀ s, Steady (step s)) (s : σ) : Steady (loop step s) :=
  fun n m hnm => steady_loopAux hs n m n m hnm hnm s

theorem steady_forEach {next : σ → Prog (Option (α × σ))} (h : ∀ s, Mono (next s)) (show_ : α → Text) (s : σ) :
    Steady (forEach next show_ s) := by
  refine steady_loop (fun s => steady_bind (steady_lift (h s)) fun r => ?_) s
  rcases r with _ | ⟨x, s'⟩
  · exact steady_ret _
  · exact steady_bind (steady_say _) fun _ => steady_ret _

theorem steady_forEachOf {next : σ → Prog (Option (α × σ))} (h : ∀ s, Mono (next s)) (show_ : α → Text) (n : Nat) (s : σ) :
    Steady (forEachOf next show_ n s) := by
  induction n generalizing s with
  | zero => exact steady_ret _
  | succ n ih =>
    refine steady_bind (steady_lift (h s)) fun r => ?_
    rcases r with _ | ⟨x, s'⟩
    · exact steady_ret _
    · exact steady_bind (steady_say _) fun _ => ih s'

end Job
open Job

/-- The program prints the text that `p` computes, and has the same outcome. -/
def Prints (j : Job Unit) (p : Prog Text) : Prop := ∀ n,
  (∀ t, p n = .done t → (j n).outcome = .done () ∧ (j n).pieces.flatten = t ∧ Ended (j n).pieces) ∧
  (p n = .panicked → (j n).outcome = .panicked) ∧ (p n = .running → (j n).outcome = .running)

theorem prints_lift {p : Prog α} {f : α → Job Unit} {g : α → Prog Text} (h : ∀ a, Prints (f a) (g a)) :
    Prints (Job.bind (lift p) f) (Prog.bind p g) := by
  intro n
  unfold Prog.bind
  rcases e : p n with _ | _ | a
  · rw [bind_running (ps := []) (by unfold lift; rw [e])]
    exact ⟨fun _ h => by (cases h), fun h => by (cases h), fun _ => rfl⟩
  · rw [bind_panicked (ps := []) (by unfold lift; rw [e])]
    exact ⟨fun _ h => by (cases h), fun _ => rfl, fun h => by (cases h)⟩
  · rw [bind_done (ps := []) (a := a) (by unfold lift; rw [e])]
    exact h a n

theorem ended_append {ps qs : List Text} (h1 : Ended ps) (h2 : Ended qs) : Ended (ps ++ qs) := by
  intro p hp
  rw [List.getLast?_append] at hp
  cases h : qs.getLast? with
  | none => rw [h] at hp; exact h1 p (by simpa using hp)
  | some q => rw [h] at hp; simp at hp; subst hp; exact h2 q h

theorem ended_lines (ls : List Text) : Ended (ls.map (· ++ ['\n'])) := by
  intro p hp
  rw [List.getLast?_map] at hp
  cases h : ls.getLast? with
  | none => rw [h] at hp; cases hp
  | some q => rw [h] at hp; simp at hp; subst hp; simp

/-- A program that prints a fixed text. -/
theorem prints_fixed {j : Job Unit} {ps : List Text} {t : Text} (h : ∀ n, j n = ⟨ps, .done ()⟩) (ht : ps.flatten = t) (he : Ended ps) :
    Prints j (Prog.ret t) := by
  intro n
  rw [h]
  refine ⟨fun t' e => ?_, fun e => by (cases e), fun e => by (cases e)⟩
  cases e
  exact ⟨rfl, ht, he⟩

/-- Some lines before. -/
theorem prints_after {p : Job Unit} {j : Job Unit} {q : Prog Text} {ps : List Text} {t : Text} (h : ∀ n, p n = ⟨ps, .done ()⟩)
    (ht : ps.flatten = t) (he : Ended ps) (hj : Prints j q) :
    Prints (Job.bind p fun _ => j) (Prog.bind q fun u => Prog.ret (t ++ u)) := by
  intro n
  rw [bind_done (h n)]
  obtain ⟨h1, h2, h3⟩ := hj n
  unfold Prog.bind
  rcases e : q n with _ | _ | u
  · exact ⟨fun _ h => by (cases h), fun h => by (cases h), fun _ => h3 e⟩
  · exact ⟨fun _ h => by (cases h), fun _ => h2 e, fun h => by (cases h)⟩
  · obtain ⟨a1, a2, a3⟩ := h1 u e
    refine ⟨fun t' e => ?_, fun h => by (cases h), fun h => by (cases h)⟩
    cases e
    exact ⟨a1, by simp [ht, a2], ended_append he a3⟩

/-- The lines of the items. -/
def itemLines (show_ : α → Text) (l : List α) : Text := l.flatMap fun x => show_ x ++ ['\n']

theorem forEach_collect {next : σ → Prog (Option (α × σ))} (show_ : α → Text) (f k : Nat) (acc : List α) (s : σ) :
    (∀ l, Prog.loopAux (Prog.collectStep next) f k (acc, s) = .done l → ∃ l', l = acc ++ l' ∧
      loopAux (forEachStep next show_) f k s = ⟨l'.map (fun x => show_ x ++ ['\n']), .done ()⟩) ∧
    (Prog.loopAux (Prog.collectStep next) f k (acc, s) = .panicked → (loopAux (forEachStep next show_) f k s).outcome = .panicked) ∧
    (Prog.loopAux (Prog.collectStep next) f k (acc, s) = .running → (loopAux (forEachStep next show_) f k s).outcome = .running) := by
  induction k generalizing acc s with
  | zero => exact ⟨fun _ h => by (cases h), fun h => by (cases h), fun _ => rfl⟩
  | succ k ih =>
    unfold Prog.loopAux loopAux
    rcases e : next s f with _ | _ | _ | ⟨x, s'⟩
    · have h1 : Prog.collectStep next (acc, s) f = .running := by unfold Prog.collectStep Prog.bind; dsimp only; rw [e]; rfl
      have h2 : forEachStep next show_ s f = ⟨[], .running⟩ := bind_running (by unfold lift; rw [e])
      rw [h1, h2]
      exact ⟨fun _ h => by (cases h), fun h => by (cases h), fun _ => rfl⟩
    · have h1 : Prog.collectStep next (acc, s) f = .panicked := by unfold Prog.collectStep Prog.bind; dsimp only; rw [e]; rfl
      have h2 : forEachStep next show_ s f = ⟨[], .panicked⟩ := bind_panicked (by unfold lift; rw [e])
      rw [h1, h2]
      exact ⟨fun _ h => by (cases h), fun _ => rfl, fun h => by (cases h)⟩
    · have h1 : Prog.collectStep next (acc, s) f = .done (.inr acc) := by unfold Prog.collectStep Prog.bind; dsimp only; rw [e]; rfl
      have h2 : forEachStep next show_ s f = ⟨[], .done (.inr ())⟩ := by
        unfold forEachStep
        rw [bind_done (ps := []) (a := none) (by unfold lift; rw [e])]; rfl
      rw [h1, h2]
      refine ⟨fun l h => ?_, fun h => by (cases h), fun h => by (cases h)⟩
      cases h
      exact ⟨[], by simp, rfl⟩
    · have h1 : Prog.collectStep next (acc, s) f = .done (.inl (acc ++ [x], s')) := by
        unfold Prog.collectStep Prog.bind; dsimp only; rw [e]; rfl
      have h2 : forEachStep next show_ s f = ⟨[show_ x ++ ['\n']], .done (.inl s')⟩ := by
        unfold forEachStep
        rw [bind_done (ps := []) (a := some (x, s')) (by unfold lift; rw [e])]; rfl
      rw [h1, h2]
      dsimp only
      obtain ⟨i1, i2, i3⟩ := ih (acc ++ [x]) s'
      refine ⟨fun l h => ?_, i2, i3⟩
      obtain ⟨l', rfl, h4⟩ := i1 l h
      exact ⟨x :: l', by simp, by rw [h4]; rfl⟩

theorem prints_forEach {next : σ → Prog (Option (α × σ))} (show_ : α → Text) (s : σ) :
    Prints (forEach next show_ s) (Prog.bind (Prog.collect next s) fun l => Prog.ret (itemLines show_ l)) := by
  intro n
  obtain ⟨h1, h2, h3⟩ := forEach_collect (next := next) show_ n n [] s
  unfold Prog.bind Prog.collect Prog.loop forEach loop
  rcases e : Prog.loopAux (Prog.collectStep next) n n ([], s) with _ | _ | l
  · exact ⟨fun _ h => by (cases h), fun h => by (cases h), fun _ => h3 e⟩
  · exact ⟨fun _ h => by (cases h), fun _ => h2 e, fun h => by (cases h)⟩
  · refine ⟨fun t ht => ?_, fun h => by (cases h), fun h => by (cases h)⟩
    cases ht
    obtain ⟨l', hl, h4⟩ := h1 l e
    rw [List.nil_append] at hl
    subst hl
    rw [h4]
    refine ⟨rfl, ?_, ?_⟩
    · simp [itemLines, List.flatMap]
    · have := ended_lines (l.map show_)
      rwa [List.map_map] at this

theorem forEachOf_takeN {next : σ → Prog (Option (α × σ))} (show_ : α → Text) (f k : Nat) (s : σ) :
    (∀ l, Prog.takeN next k s f = .done l → forEachOf next show_ k s f = ⟨l.map (fun x => show_ x ++ ['\n']), .done ()⟩) ∧
    (Prog.takeN next k s f = .panicked → (forEachOf next show_ k s f).outcome = .panicked) ∧
    (Prog.takeN next k s f = .running → (forEachOf next show_ k s f).outcome = .running) := by
  induction k generalizing s with
  | zero =>
    refine ⟨fun l h => ?_, fun h => by (cases h), fun h => by (cases h)⟩
    cases h
    rfl
  | succ k ih =>
    unfold Prog.takeN forEachOf Prog.bind
    rcases e : next s f with _ | _ | _ | ⟨x, s'⟩
    · rw [bind_running (ps := []) (by unfold lift; rw [e])]
      exact ⟨fun _ h => by (cases h), fun h => by (cases h), fun _ => rfl⟩
    · rw [bind_panicked (ps := []) (by unfold lift; rw [e])]
      exact ⟨fun _ h => by (cases h), fun _ => rfl, fun h => by (cases h)⟩
    · rw [bind_done (ps := []) (by unfold lift; rw [e])]
      refine ⟨fun l h => ?_, fun h => by (cases h), fun h => by (cases h)⟩
      cases h
      rfl
    · rw [bind_done (ps := []) (by unfold lift; rw [e])]
      obtain ⟨i1, i2, i3⟩ := ih s'
      dsimp only [Run.bind_done]
      rw [bind_done (p := say (show_ x)) (ps := [show_ x ++ ['\n']]) (a := ()) rfl]
      rcases e' : Prog.takeN next k s' f with _ | _ | l'
      · exact ⟨fun _ h => by (cases h), fun h => by (cases h), fun _ => i3 e'⟩
      · exact ⟨fun _ h => by (cases h), fun _ => i2 e', fun h => by (cases h)⟩
      · refine ⟨fun l h => ?_, fun h => by (cases h), fun h => by (cases h)⟩
        cases h
        rw [i1 l' e']
        rfl

theorem prints_forEachOf {next : σ → Prog (Option (α × σ))} (show_ : α → Text) (k : Nat) (s : σ) :
    Prints (forEachOf next show_ k s) (Prog.bind (Prog.takeN next k s) fun l => Prog.ret (itemLines show_ l)) := by
  intro n
  obtain ⟨h1, h2, h3⟩ := forEachOf_takeN (next := next) show_ n k s
  unfold Prog.bind
  rcases e : Prog.takeN next k s n with _ | _ | l
  · exact ⟨fun _ h => by (cases h), fun h => by (cases h), fun _ => h3 e⟩
  · exact ⟨fun _ h => by (cases h), fun _ => h2 e, fun h => by (cases h)⟩
  · refine ⟨fun t ht => ?_, fun h => by (cases h), fun h => by (cases h)⟩
    cases ht
    rw [h1 l e]
    refine ⟨rfl, ?_, ?_⟩
    · simp [itemLines, List.flatMap]
    · have := ended_lines (l.map show_)
      rwa [List.map_map] at this

end Stream
end GC
