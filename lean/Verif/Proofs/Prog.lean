/- Lemmas about `Prog`, `Returns`, loops and iterators. -/
import Verif.Model.Prog
namespace GC
open Prog

variable {α β σ : Type}

@[simp] theorem Run.bind_done (a : α) (f : α → Run β) : (Run.done a).bind f = f a := rfl
@[simp] theorem Run.bind_running (f : α → Run β) : (Run.running).bind f = .running := rfl
@[simp] theorem Run.bind_panicked (f : α → Run β) : (Run.panicked).bind f = .panicked := rfl

theorem Run.bind_eq_done {r : Run α} {f : α → Run β} {b : β} :
    r.bind f = .done b ↔ ∃ a, r = .done a ∧ f a = .done b := by
  cases r <;> simp

theorem Returns.unique {p : Prog α} {a b : α} (h1 : Returns p a) (h2 : Returns p b) : a = b := by
  obtain ⟨n, hn⟩ := h1
  obtain ⟨m, hm⟩ := h2
  have e1 := hn (max n m) (Nat.le_max_left _ _)
  have e2 := hm (max n m) (Nat.le_max_right _ _)
  rw [e1] at e2
  exact Run.done.inj e2

theorem Returns.not_panics {p : Prog α} {a : α} (h1 : Returns p a) : ¬ Panics p := by
  rintro ⟨m, hm⟩
  obtain ⟨n, hn⟩ := h1
  have e1 := hn (max n m) (Nat.le_max_left _ _)
  have e2 := hm (max n m) (Nat.le_max_right _ _)
  rw [e1] at e2
  cases e2

theorem Returns.not_diverges {p : Prog α} {a : α} (h1 : Returns p a) : ¬ Diverges p := by
  intro h
  obtain ⟨n, hn⟩ := h1
  have e1 := hn n (Nat.le_refl _)
  rw [h n] at e1
  cases e1

theorem Panics.not_diverges {p : Prog α} (h1 : Panics p) : ¬ Diverges p := by
  intro h
  obtain ⟨n, hn⟩ := h1
  have e1 := hn n (Nat.le_refl _)
  rw [h n] at e1
  cases e1

theorem Returns.ret (a : α) : Returns (Prog.ret a) a := ⟨0, fun _ _ => rfl⟩

theorem Returns.pure (a : α) : Returns (Pure.pure a : Prog α) a := ⟨0, fun _ _ => rfl⟩

theorem Returns.lift_done (a : α) : Returns (Prog.lift (.done a)) a := ⟨0, fun _ _ => rfl⟩

theorem Returns.bind {p : Prog α} {f : α → Prog β} {a : α} {b : β}
    (h1 : Returns p a) (h2 : Returns (f a) b) : Returns (Prog.bind p f) b := by
  obtain ⟨n, hn⟩ := h1
  obtain ⟨m, hm⟩ := h2
  refine ⟨max n m, fun k hk => ?_⟩
  have e1 := hn k (Nat.le_trans (Nat.le_max_left _ _) hk)
  have e2 := hm k (Nat.le_trans (Nat.le_max_right _ _) hk)
  simp [Prog.bind, e1, e2]

theorem Panics.bind_right {p : Prog α} {f : α → Prog β} {a : α}
    (h1 : Returns p a) (h2 : Panics (f a)) : Panics (Prog.bind p f) := by
  obtain ⟨n, hn⟩ := h1
  obtain ⟨m, hm⟩ := h2
  refine ⟨max n m, fun k hk => ?_⟩
  have e1 := hn k (Nat.le_trans (Nat.le_max_left _ _) hk)
  have e2 := hm k (Nat.le_trans (Nat.le_max_right _ _) hk)
  simp [Prog.bind, e1, e2]

theorem Panics.bind_left {p : Prog α} {f : α → Prog β}
    (h1 : Panics p) : Panics (Prog.bind p f) := by
  obtain ⟨n, hn⟩ := h1
  refine ⟨n, fun k hk => ?_⟩
  simp [Prog.bind, hn k hk]

theorem Returns.of_bind_left {p : Prog α} {f : α → Prog β} {a : α} {b : β}
    (h1 : Returns p a) (h : Returns (Prog.bind p f) b) : Returns (f a) b := by
  obtain ⟨n, hn⟩ := h1
  obtain ⟨m, hm⟩ := h
  refine ⟨max n m, fun k hk => ?_⟩
  have e1 := hn k (Nat.le_trans (Nat.le_max_left _ _) hk)
  have e2 := hm k (Nat.le_trans (Nat.le_max_right _ _) hk)
  simpa [Prog.bind, e1] using e2

/-! ### Loops -/

/-- Big-step meaning of a loop that terminates. -/
inductive LoopTo (step : σ → Prog (σ ⊕ β)) : σ → β → Prop where
  | stop {s b} : Returns (step s) (.inr b) → LoopTo step s b
  | next {s s' b} : Returns (step s) (.inl s') → LoopTo step s' b → LoopTo step s b

theorem LoopTo.returns {step : σ → Prog (σ ⊕ β)} {s : σ} {b : β}
    (h : LoopTo step s b) : Returns (loop step s) b := by
  have key : ∃ n, ∀ m, n ≤ m → ∀ k, n ≤ k → loopAux step m k s = .done b := by
    induction h with
    | stop h =>
      obtain ⟨n, hn⟩ := h
      refine ⟨n + 1, fun m hm k hk => ?_⟩
      obtain ⟨k, rfl⟩ : ∃ k', k = k' + 1 := ⟨k - 1, by omega⟩
      simp [loopAux, hn m (by omega)]
    | next h _ ih =>
      obtain ⟨n, hn⟩ := h
      obtain ⟨n', hn'⟩ := ih
      refine ⟨n + n' + 1, fun m hm k hk => ?_⟩
      obtain ⟨k, rfl⟩ : ∃ k', k = k' + 1 := ⟨k - 1, by omega⟩
      simp only [loopAux, hn m (by omega)]
      exact hn' m (by omega) k (by omega)
  obtain ⟨n, hn⟩ := key
  exact ⟨n, fun m hm => hn m hm m hm⟩

/-- A loop panics if its body panics after finitely many iterations. -/
inductive LoopPanics (step : σ → Prog (σ ⊕ β)) : σ → Prop where
  | stop {s} : Panics (step s) → LoopPanics step s
  | next {s s'} : Returns (step s) (.inl s') → LoopPanics step s' → LoopPanics step s

theorem LoopPanics.panics {step : σ → Prog (σ ⊕ β)} {s : σ}
    (h : LoopPanics step s) : Panics (loop step s) := by
  have key : ∃ n, ∀ m, n ≤ m → ∀ k, n ≤ k → loopAux step m k s = .panicked := by
    induction h with
    | stop h =>
      obtain ⟨n, hn⟩ := h
      refine ⟨n + 1, fun m hm k hk => ?_⟩
      obtain ⟨k, rfl⟩ : ∃ k', k = k' + 1 := ⟨k - 1, by omega⟩
      simp [loopAux, hn m (by omega)]
    | next h _ ih =>
      obtain ⟨n, hn⟩ := h
      obtain ⟨n', hn'⟩ := ih
      refine ⟨n + n' + 1, fun m hm k hk => ?_⟩
      obtain ⟨k, rfl⟩ : ∃ k', k = k' + 1 := ⟨k - 1, by omega⟩
      simp only [loopAux, hn m (by omega)]
      exact hn' m (by omega) k (by omega)
  obtain ⟨n, hn⟩ := key
  exact ⟨n, fun m hm => hn m hm m hm⟩

/-- Total correctness of a loop: an invariant and a decreasing measure. -/
theorem LoopTo.of_measure {step : σ → Prog (σ ⊕ β)} (I : σ → Prop) (Q : β → Prop) (μ : σ → Nat)
    (hstep : ∀ s, I s → (∃ s', Returns (step s) (.inl s') ∧ I s' ∧ μ s' < μ s) ∨
      (∃ b, Returns (step s) (.inr b) ∧ Q b))
    (s : σ) (hs : I s) : ∃ b, LoopTo step s b ∧ Q b := by
  generalize hn : μ s = n
  induction n using Nat.strongRecOn generalizing s with
  | _ n ih =>
    rcases hstep s hs with ⟨s', h1, h2, h3⟩ | ⟨b, h1, h2⟩
    · obtain ⟨b, hb, hq⟩ := ih (μ s') (by omega) s' h2 rfl
      exact ⟨b, .next h1 hb, hq⟩
    · exact ⟨b, .stop h1, h2⟩

theorem returns_loop_of_measure {step : σ → Prog (σ ⊕ β)} (I : σ → Prop) (Q : β → Prop) (μ : σ → Nat)
    (hstep : ∀ s, I s → (∃ s', Returns (step s) (.inl s') ∧ I s' ∧ μ s' < μ s) ∨
      (∃ b, Returns (step s) (.inr b) ∧ Q b))
    (s : σ) (hs : I s) : ∃ b, Returns (loop step s) b ∧ Q b := by
  obtain ⟨b, h, hq⟩ := LoopTo.of_measure I Q μ hstep s hs
  exact ⟨b, h.returns, hq⟩

/-- Total correctness of a loop with a well-founded relation. -/
theorem returns_loop_of_wf {step : σ → Prog (σ ⊕ β)} (I : σ → Prop) (Q : β → Prop)
    (r : σ → σ → Prop) (hr : WellFounded r)
    (hstep : ∀ s, I s → (∃ s', Returns (step s) (.inl s') ∧ I s' ∧ r s' s) ∨
      (∃ b, Returns (step s) (.inr b) ∧ Q b))
    (s : σ) (hs : I s) : ∃ b, Returns (loop step s) b ∧ Q b := by
  have : ∃ b, LoopTo step s b ∧ Q b := by
    induction s using hr.induction with
    | _ s ih =>
      rcases hstep s hs with ⟨s', h1, h2, h3⟩ | ⟨b, h1, h2⟩
      · obtain ⟨b, hb, hq⟩ := ih s' h3 h2
        exact ⟨b, .next h1 hb, hq⟩
      · exact ⟨b, .stop h1, h2⟩
  obtain ⟨b, h, hq⟩ := this
  exact ⟨b, h.returns, hq⟩

/-- Partial correctness of a loop at a given fuel. -/
theorem loop_partial {step : σ → Prog (σ ⊕ β)} (I : σ → Prop) (Q : β → Prop) {n : Nat}
    (hnext : ∀ s s', I s → step s n = .done (.inl s') → I s')
    (hstop : ∀ s b, I s → step s n = .done (.inr b) → Q b)
    {s : σ} (hs : I s) {b : β} (h : loop step s n = .done b) : Q b := by
  have key : ∀ k s, I s → loopAux step n k s = .done b → Q b := by
    intro k
    induction k with
    | zero => intro s _ h; simp [loopAux] at h
    | succ k ih =>
      intro s hs h
      simp only [loopAux] at h
      split at h <;> try (cases h; done)
      · rename_i s' e
        exact ih s' (hnext s s' hs e) h
      · rename_i b' e
        cases h
        exact hstop s b hs e
  exact key n s hs h

/-- No panic at a given fuel. -/
theorem loop_no_panic {step : σ → Prog (σ ⊕ β)} (I : σ → Prop) {n : Nat}
    (hnext : ∀ s s', I s → step s n = .done (.inl s') → I s')
    (hstop : ∀ s, I s → step s n ≠ .panicked)
    {s : σ} (hs : I s) : loop step s n ≠ .panicked := by
  have key : ∀ k s, I s → loopAux step n k s ≠ .panicked := by
    intro k
    induction k with
    | zero => intro s _ h; simp [loopAux] at h
    | succ k ih =>
      intro s hs h
      simp only [loopAux] at h
      split at h <;> try (cases h; done)
      · rename_i e
        exact hstop s hs e
      · rename_i s' e
        exact ih s' (hnext s s' hs e) h
  exact key n s hs

/-- Divergence of a loop: every body step continues inside an invariant set. -/
theorem loop_diverges {step : σ → Prog (σ ⊕ β)} (I : σ → Prop)
    (hnext : ∀ s n, I s → step s n = .running ∨ ∃ s', step s n = .done (.inl s') ∧ I s')
    {s : σ} (hs : I s) : Diverges (loop step s) := by
  intro n
  have key : ∀ k s, I s → loopAux step n k s = .running := by
    intro k
    induction k with
    | zero => intro s _; rfl
    | succ k ih =>
      intro s hs
      rcases hnext s n hs with h | ⟨s', h, h'⟩
      · simp [loopAux, h]
      · simp only [loopAux, h]; exact ih s' h'
  exact key n s hs

/-! ### Iterators -/

/-- `IterRun next s outs s'`: starting in `s`, the first calls of `next` yielded `outs` and left state `s'`. -/
inductive IterRun (next : σ → Prog (Option (α × σ))) : σ → List α → σ → Prop where
  | refl {s} : IterRun next s [] s
  | step {s outs s' x s''} : IterRun next s outs s' → Returns (next s') (some (x, s'')) →
      IterRun next s (outs ++ [x]) s''

/-- The iterator yields exactly `outs` and is then exhausted. -/
inductive Drains (next : σ → Prog (Option (α × σ))) : σ → List α → Prop where
  | nil {s} : Returns (next s) none → Drains next s []
  | cons {s x s' xs} : Returns (next s) (some (x, s')) → Drains next s' xs → Drains next s (x :: xs)

theorem Drains.collect {next : σ → Prog (Option (α × σ))} {s : σ} {xs : List α}
    (h : Drains next s xs) : Returns (Prog.collect next s) xs := by
  have key : ∀ acc, LoopTo (collectStep next) (acc, s) (acc ++ xs) := by
    induction h with
    | nil h =>
      intro acc
      refine .stop (Returns.bind h ?_)
      simpa using Returns.ret _
    | @cons s x s' xs h _ ih =>
      intro acc
      refine .next (Returns.bind h (Returns.ret _)) ?_
      have := ih (acc ++ [x])
      simpa using this
  exact (key []).returns

theorem IterRun.drains {next : σ → Prog (Option (α × σ))} {s s' : σ} {xs ys : List α}
    (h : IterRun next s xs s') (h2 : Drains next s' ys) : Drains next s (xs ++ ys) := by
  induction h generalizing ys with
  | refl => simpa using h2
  | step _ hx ih =>
    have := ih (.cons hx h2)
    simpa using this

/-- Draining an iterator with an invariant relating what was yielded so far and the state. -/
theorem drains_of_measure {next : σ → Prog (Option (α × σ))} (I : List α → σ → Prop) (Q : List α → Prop)
    (μ : σ → Nat)
    (hstep : ∀ outs s, I outs s → (∃ x s', Returns (next s) (some (x, s')) ∧ I (outs ++ [x]) s' ∧ μ s' < μ s) ∨
      (Returns (next s) none ∧ Q outs))
    (s : σ) (hs : I [] s) : ∃ xs, Drains next s xs ∧ Q xs := by
  have key : ∀ n outs s, μ s = n → I outs s → ∃ ys, Drains next s ys ∧ Q (outs ++ ys) := by
    intro n
    induction n using Nat.strongRecOn with
    | _ n ih =>
      intro outs s hn hs
      rcases hstep outs s hs with ⟨x, s', h1, h2, h3⟩ | ⟨h1, h2⟩
      · obtain ⟨ys, hb, hq⟩ := ih (μ s') (by omega) (outs ++ [x]) s' rfl h2
        exact ⟨x :: ys, .cons h1 hb, by simpa using hq⟩
      · exact ⟨[], .nil h1, by simpa using h2⟩
  obtain ⟨ys, h, hq⟩ := key _ [] s rfl hs
  exact ⟨ys, h, by simpa using hq⟩

theorem Drains.find {next : σ → Prog (Option (α × σ))} {s : σ} {xs : List α} (p : α → Bool)
    (h : Drains next s xs) : Returns (Prog.find p next s) (xs.find? p) := by
  apply LoopTo.returns
  induction h with
  | nil h => exact .stop (Returns.bind h (Returns.ret _))
  | @cons s x s' xs h _ ih =>
    by_cases hp : p x = true
    · refine .stop (Returns.bind h ?_)
      simp only [hp, if_true, List.find?_cons_of_pos]
      exact Returns.ret _
    · refine .next (Returns.bind h ?_) (s' := s') ?_
      · simp only [hp]
        exact Returns.ret _
      · simpa [List.find?_cons, hp] using ih

theorem Drains.takeN {next : σ → Prog (Option (α × σ))} {s : σ} {xs : List α} (n : Nat)
    (h : Drains next s xs) : Returns (Prog.takeN next n s) (xs.take n) := by
  induction h generalizing n with
  | nil h =>
    cases n with
    | zero => exact Returns.ret _
    | succ n => exact Returns.bind h (by simpa using Returns.ret _)
  | cons h _ ih =>
    cases n with
    | zero => exact Returns.ret _
    | succ n =>
      refine Returns.bind h (Returns.bind (ih n) ?_)
      simpa using Returns.ret _

theorem IterRun.trans {next : σ → Prog (Option (α × σ))} {s s' s'' : σ} {xs ys : List α}
    (h : IterRun next s xs s') (h2 : IterRun next s' ys s'') : IterRun next s (xs ++ ys) s'' := by
  induction h2 with
  | refl => simpa using h
  | step _ hx ih => rw [← List.append_assoc]; exact .step ih hx

/-- `find` returns the first hit after a run of misses. -/
theorem IterRun.find_some {next : σ → Prog (Option (α × σ))} {s s' s'' : σ} {xs : List α} {x : α} {p : α → Bool}
    (h : IterRun next s xs s') (hxs : ∀ y ∈ xs, p y = false)
    (hx : Returns (next s') (some (x, s''))) (hp : p x = true) :
    Returns (Prog.find p next s) (some x) := by
  apply LoopTo.returns
  suffices h : ∀ (b : Option α), LoopTo (findStep p next) s' b →
      LoopTo (findStep p next) s b by
    apply h
    refine .stop (Returns.bind hx ?_)
    simp only [hp, if_true]
    exact Returns.ret _
  clear hx
  induction h with
  | refl => intro b h; exact h
  | step _ hy ih =>
    intro b hb
    apply ih (fun y hy => hxs y (by simp [hy]))
    refine .next (Returns.bind hy ?_) hb
    simp only [hxs _ (List.mem_append_right _ (List.mem_singleton.2 rfl)), Bool.false_eq_true, if_false]
    exact Returns.ret _

theorem Run.unwrap_some (a : α) : Run.unwrap (some a) = .done a := rfl

/-! ### Programs whose outcome does not change with more fuel -/

/-- More fuel does not change the outcome once there is one. -/
def Mono (p : Prog α) : Prop := ∀ n m, n ≤ m → p n ≠ .running → p m = p n

theorem Mono.returns {p : Prog α} (h : Mono p) {n : Nat} {a : α} (e : p n = .done a) : Returns p a :=
  ⟨n, fun m hm => by rw [h n m hm (by rw [e]; simp), e]⟩

theorem Mono.panics {p : Prog α} (h : Mono p) {n : Nat} (e : p n = .panicked) : Panics p :=
  ⟨n, fun m hm => by rw [h n m hm (by rw [e]; simp), e]⟩

theorem Mono.ret (a : α) : Mono (Prog.ret a) := fun _ _ _ _ => rfl
theorem Mono.lift (r : Run α) : Mono (Prog.lift r) := fun _ _ _ _ => rfl

theorem Mono.bind {p : Prog α} {f : α → Prog β} (hp : Mono p) (hf : ∀ a, Mono (f a)) : Mono (Prog.bind p f) := by
  intro n m hnm h
  simp only [Prog.bind] at h ⊢
  have hr : p n ≠ .running := fun e => by rw [e] at h; exact h rfl
  rw [hp n m hnm hr]
  cases e : p n with
  | running => exact absurd e hr
  | panicked => rfl
  | done a =>
    rw [e] at h
    exact hf a n m hnm h

theorem loopAux_mono {step : σ → Prog (σ ⊕ β)} (hs : ∀ s, Mono (step s)) (f f' k k' : Nat) (hf : f ≤ f') (hk : k ≤ k') (s : σ)
    (h : Prog.loopAux step f k s ≠ .running) : Prog.loopAux step f' k' s = Prog.loopAux step f k s := by
  induction k generalizing k' s with
  | zero => exact absurd rfl h
  | succ k ih =>
    obtain ⟨k', rfl⟩ : ∃ j, k' = j + 1 := ⟨k' - 1, by omega⟩
    have hne : step s f ≠ .running := fun e => by
      apply h; rw [Prog.loopAux, e]
    have e := hs s f f' hf hne
    rw [Prog.loopAux, Prog.loopAux, e]
    rw [Prog.loopAux] at h
    cases e2 : step s f with
    | running => rfl
    | panicked => rfl
    | done r =>
      rw [e2] at h
      cases r with
      | inl s' => exact ih k' (by omega) s' h
      | inr b => rfl

theorem Mono.loop {step : σ → Prog (σ ⊕ β)} (hs : ∀ s, Mono (step s)) (s : σ) : Mono (Prog.loop step s) :=
  fun n m hnm h => loopAux_mono hs n m n m hnm hnm s h

theorem Mono.find {next : σ → Prog (Option (α × σ))} (h : ∀ s, Mono (next s)) (p : α → Bool) (s : σ) : Mono (Prog.find p next s) := by
  refine Mono.loop (fun s => Mono.bind (h s) fun r => ?_) s
  cases r with
  | none => exact Mono.ret _
  | some x =>
    simp only
    split
    · exact Mono.ret _
    · exact Mono.ret _

theorem Mono.collect {next : σ → Prog (Option (α × σ))} (h : ∀ s, Mono (next s)) (s : σ) : Mono (Prog.collect next s) := by
  refine Mono.loop (step := Prog.collectStep next) (fun s => Mono.bind (h s.2) fun r => ?_) _
  cases r with
  | none => exact Mono.ret _
  | some x => exact Mono.ret _

/-- What a returning `find` tells about the iterator. -/
theorem find_inv {next : σ → Prog (Option (α × σ))} (hm : ∀ s, Mono (next s)) {p : α → Bool} {s : σ} {r : Option α}
    (h : Returns (Prog.find p next s) r) :
    ∃ outs s', IterRun next s outs s' ∧ (∀ y ∈ outs, p y = false) ∧
      ((r = none ∧ Returns (next s') none) ∨ ∃ x s'', r = some x ∧ p x = true ∧ Returns (next s') (some (x, s''))) := by
  obtain ⟨n, h⟩ := h
  have h := h n (Nat.le_refl _)
  refine loop_partial (step := Prog.findStep p next) (fun s' => ∃ outs, IterRun next s outs s' ∧ ∀ y ∈ outs, p y = false)
    (fun r => ∃ outs s', IterRun next s outs s' ∧ (∀ y ∈ outs, p y = false) ∧
      ((r = none ∧ Returns (next s') none) ∨ ∃ x s'', r = some x ∧ p x = true ∧ Returns (next s') (some (x, s'')))) (n := n)
    ?_ ?_ ⟨[], .refl, by simp⟩ h
  · rintro s1 s2 ⟨outs, h1, h2⟩ h3
    obtain ⟨r, h4, h5⟩ := Run.bind_eq_done.1 h3
    cases r with
    | none => cases h5
    | some x =>
      obtain ⟨x, s3⟩ := x
      simp only at h5
      by_cases hp : p x = true
      · rw [if_pos hp] at h5; cases h5
      · rw [if_neg hp] at h5
        cases h5
        refine ⟨outs ++ [x], .step h1 ((hm s1).returns h4), ?_⟩
        intro y hy
        rcases List.mem_append.1 hy with hy | hy
        · exact h2 y hy
        · rw [List.mem_singleton.1 hy]; simpa using hp
  · rintro s1 b ⟨outs, h1, h2⟩ h3
    obtain ⟨r, h4, h5⟩ := Run.bind_eq_done.1 h3
    cases r with
    | none => cases h5; exact ⟨outs, s1, h1, h2, .inl ⟨rfl, (hm s1).returns h4⟩⟩
    | some x =>
      obtain ⟨x, s3⟩ := x
      simp only at h5
      by_cases hp : p x = true
      · rw [if_pos hp] at h5; cases h5
        exact ⟨outs, s1, h1, h2, .inr ⟨x, s3, rfl, hp, (hm s1).returns h4⟩⟩
      · rw [if_neg hp] at h5
        cases h5

/-- `find` returns when the iterator cannot produce more than `N` items before a hit or its end. -/
theorem find_returns {next : σ → Prog (Option (α × σ))} {p : α → Bool} (I : List α → σ → Prop) (N : Nat)
    (hI : ∀ outs s, I outs s → outs.length ≤ N)
    (hstep : ∀ outs s, I outs s → Returns (next s) none ∨
      ∃ x s', Returns (next s) (some (x, s')) ∧ (p x = false → I (outs ++ [x]) s'))
    (s : σ) (hs : I [] s) : ∃ r, Returns (Prog.find p next s) r := by
  suffices h : ∀ k outs s, I outs s → N - outs.length ≤ k → ∃ r, LoopTo (Prog.findStep p next) s r by
    obtain ⟨r, h⟩ := h _ [] s hs (Nat.le_refl _)
    exact ⟨r, h.returns⟩
  intro k
  induction k with
  | zero =>
    intro outs s h hk
    rcases hstep outs s h with h1 | ⟨x, s', h1, h2⟩
    · exact ⟨none, .stop (Returns.bind h1 (Returns.ret _))⟩
    · by_cases hp : p x = true
      · refine ⟨some x, .stop (Returns.bind h1 ?_)⟩
        simp only [hp, if_true]
        exact Returns.ret _
      · have h3 := hI _ _ (h2 (by simpa using hp))
        have := hI _ _ h
        simp only [List.length_append, List.length_singleton] at h3
        omega
  | succ k ih =>
    intro outs s h hk
    rcases hstep outs s h with h1 | ⟨x, s', h1, h2⟩
    · exact ⟨none, .stop (Returns.bind h1 (Returns.ret _))⟩
    · by_cases hp : p x = true
      · refine ⟨some x, .stop (Returns.bind h1 ?_)⟩
        simp only [hp, if_true]
        exact Returns.ret _
      · have h3 := h2 (by simpa using hp)
        obtain ⟨r, hr⟩ := ih (outs ++ [x]) s' h3 (by simp; omega)
        refine ⟨r, .next (Returns.bind h1 ?_) hr⟩
        simp only [hp]
        exact Returns.ret _

end GC
