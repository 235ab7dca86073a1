/- Lemmas about iterators as objects. -/
import Verif.Spec.Objects
import Verif.Proofs.Adaptors
namespace GC
namespace Objects
variable {σ α ι : Type}

/-- `call` answers as `next` says, and at the end leaves a state in which the end stays. -/
structure Obj (next : σ → Prog (Option (α × σ))) (call : σ → Prog (Option α × σ)) (End : σ → Prop) : Prop where
  item : ∀ n s x s', next s n = .done (some (x, s')) → call s n = .done (some x, s')
  finish : ∀ n s, next s n = .done none → ∃ s', call s n = .done (none, s')
  ended : ∀ n s s', call s n = .done (none, s') → End s'
  stays : ∀ n s, End s → call s (n + 1) = .done (none, s)

theorem Obj.of_pop {next : σ → Prog (Option (α × σ))} {call : σ → Prog (Option α × σ)} (End : σ → Prop)
    (h : ∀ s, call s = Prog.bind (next s) fun r => match r with
      | none => Prog.ret (none, s)
      | some (x, s') => Prog.ret (some x, s'))
    (h1 : ∀ n s, next s n = .done none → End s) (h2 : ∀ n s, End s → next s (n + 1) = .done none) : Obj next call End := by
  refine ⟨?_, ?_, ?_, ?_⟩
  · intro n s x s' hn
    rw [h]; show (next s n).bind _ = _; rw [hn]; rfl
  · intro n s hn
    refine ⟨s, ?_⟩
    rw [h]; show (next s n).bind _ = _; rw [hn]; rfl
  · intro n s s' hc
    rw [h] at hc
    change (next s n).bind _ = _ at hc
    cases hn : next s n with
    | running => rw [hn] at hc; cases hc
    | panicked => rw [hn] at hc; cases hc
    | done r =>
      rw [hn] at hc
      cases r with
      | none => cases hc; exact h1 n s hn
      | some p => cases hc
  · intro n s he
    rw [h]; show (next s (n + 1)).bind _ = _; rw [h2 n s he]; rfl

theorem calls_end {call : σ → Prog (Option α × σ)} {n : Nat} {s : σ} (h : call s n = .done (none, s)) (k : Nat) :
    calls call k s n = .done (List.replicate k none) := by
  induction k with
  | zero => rfl
  | succ k ih =>
    show (call s n).bind _ = _
    rw [h]
    show (calls call k s n).bind _ = _
    rw [ih]; rfl

theorem Obj.enumerates {next : σ → Prog (Option (α × σ))} {call : σ → Prog (Option α × σ)} {End : σ → Prop} (h : Obj next call End)
    {s : σ} {xs : List α} (hd : Drains next s xs) : Enumerates call s xs := by
  intro k
  induction hd generalizing k with
  | @nil s h1 =>
    obtain ⟨n, hn⟩ := h1
    refine ⟨n + 1, fun m hm => ?_⟩
    obtain ⟨m, rfl⟩ : ∃ m', m = m' + 1 := ⟨m - 1, by omega⟩
    obtain ⟨s', hs⟩ := h.finish _ _ (hn (m + 1) (by omega))
    have hst := h.stays m s' (h.ended _ _ _ hs)
    cases k with
    | zero => rfl
    | succ k =>
      show (call s (m + 1)).bind _ = _
      rw [hs]
      show (calls call k s' (m + 1)).bind _ = _
      rw [calls_end hst k]
      simp [answers, Run.bind, Prog.ret, List.replicate_succ]
  | @cons s x s' xs h1 _ ih =>
    cases k with
    | zero => exact ⟨0, fun _ _ => by simp [calls, answers, Prog.ret]⟩
    | succ k =>
      have h2 : Returns (call s) (some x, s') := by
        obtain ⟨n, hn⟩ := h1
        exact ⟨n, fun m hm => h.item _ _ _ _ (hn m hm)⟩
      refine Returns.bind h2 (Returns.bind (ih k) ?_)
      have : some x :: answers xs k = answers (x :: xs) (k + 1) := by simp [answers]
      rw [this]
      exact Returns.ret _

theorem calls_length {call : σ → Prog (Option α × σ)} {n k : Nat} {s : σ} {as : List (Option α)} (h : calls call k s n = .done as) :
    as.length = k := by
  induction k generalizing s as with
  | zero => cases h; rfl
  | succ k ih =>
    change (call s n).bind _ = _ at h
    cases hc : call s n with
    | running => rw [hc] at h; cases h
    | panicked => rw [hc] at h; cases h
    | done r =>
      rw [hc] at h
      change (calls call k r.2 n).bind _ = _ at h
      cases hc2 : calls call k r.2 n with
      | running => rw [hc2] at h; cases h
      | panicked => rw [hc2] at h; cases h
      | done bs =>
        rw [hc2] at h
        cases h
        simp [ih hc2]

theorem Obj.staysEnded {next : σ → Prog (Option (α × σ))} {call : σ → Prog (Option α × σ)} {End : σ → Prop} (h : Obj next call End)
    (s : σ) : StaysEnded call s := by
  rintro k as ⟨n, hn⟩ i j hij hjk
  have hr := hn (n + 1) (by omega)
  clear hn
  revert hr
  generalize n = m
  intro hr
  induction k generalizing s as i j with
  | zero => omega
  | succ k ih =>
    change (call s (m + 1)).bind _ = _ at hr
    cases hc : call s (m + 1) with
    | running => rw [hc] at hr; cases hr
    | panicked => rw [hc] at hr; cases hr
    | done r =>
      rw [hc] at hr
      change (calls call k r.2 (m + 1)).bind _ = _ at hr
      cases hc2 : calls call k r.2 (m + 1) with
      | running => rw [hc2] at hr; cases hr
      | panicked => rw [hc2] at hr; cases hr
      | done bs =>
        rw [hc2] at hr
        cases hr
        obtain ⟨j, rfl⟩ : ∃ j', j = j' + 1 := ⟨j - 1, by omega⟩
        intro hi
        cases i with
        | succ i =>
          simp only [List.getElem?_cons_succ] at hi ⊢
          exact ih r.2 bs i j (by omega) (by omega) hc2 hi
        | zero =>
          obtain ⟨r1, r2⟩ := r
          simp only [List.getElem?_cons_zero, Option.some.injEq] at hi
          subst hi
          have := calls_end (h.stays m r2 (h.ended _ _ _ hc)) k
          rw [this] at hc2
          cases hc2
          simp only [List.getElem?_cons_succ]
          rw [List.getElem?_replicate, if_pos (by omega)]

theorem depthFirst_obj (g : DirectedGraph) : Obj (DepthFirstIter.next g) (depthFirst g) (fun s => s.stack.pop = none) := by
  refine .of_pop _ (fun s => ?_) (fun n s h => ?_) (fun n s h => ?_)
  · unfold depthFirst DepthFirstIter.next
    cases s.stack.pop with
    | none => rfl
    | some p => rfl
  · unfold DepthFirstIter.next at h
    cases hp : s.stack.pop with
    | none => rfl
    | some p => rw [hp] at h; cases h
  · unfold DepthFirstIter.next; rw [h]; rfl

theorem breadthFirst_obj (g : DirectedGraph) : Obj (BreadthFirstIter.next g) (breadthFirst g) (fun s => s.queue.pop = none) := by
  refine .of_pop _ (fun s => ?_) (fun n s h => ?_) (fun n s h => ?_)
  · unfold breadthFirst BreadthFirstIter.next
    cases s.queue.pop with
    | none => rfl
    | some p => rfl
  · unfold BreadthFirstIter.next at h
    cases hp : s.queue.pop with
    | none => rfl
    | some p => rw [hp] at h; cases h
  · unfold BreadthFirstIter.next; rw [h]; rfl

theorem depthFirstPath_obj (g : DirectedGraph) : Obj (DepthFirstPathIter.next g) (depthFirstPath g) (fun s => s.stack.pop = none) := by
  refine .of_pop _ (fun s => ?_) (fun n s h => ?_) (fun n s h => ?_)
  · unfold depthFirstPath DepthFirstPathIter.next
    cases s.stack.pop with
    | none => rfl
    | some p => cases hl : p.1.last <;> simp [hl, Prog.bind, Prog.lift, Run.unwrap] <;> rfl
  · unfold DepthFirstPathIter.next at h
    cases hp : s.stack.pop with
    | none => rfl
    | some p => rw [hp] at h; cases hl : p.1.last <;> simp [hl, Prog.lift, Run.unwrap, Run.bind] at h
  · unfold DepthFirstPathIter.next; rw [h]; rfl

theorem breadthFirstPath_obj (g : DirectedGraph) :
    Obj (BreadthFirstPathIter.next g) (breadthFirstPath g) (fun s => s.queue.pop = none) := by
  refine .of_pop _ (fun s => ?_) (fun n s h => ?_) (fun n s h => ?_)
  · unfold breadthFirstPath BreadthFirstPathIter.next
    cases s.queue.pop with
    | none => rfl
    | some p => cases hl : p.1.last <;> simp [hl, Prog.bind, Prog.lift, Run.unwrap] <;> rfl
  · unfold BreadthFirstPathIter.next at h
    cases hp : s.queue.pop with
    | none => rfl
    | some p => rw [hp] at h; cases hl : p.1.last <;> simp [hl, Prog.lift, Run.unwrap, Run.bind] at h
  · unfold BreadthFirstPathIter.next; rw [h]; rfl

theorem bestFirst_obj {H : ScoredHeap} (g : DirectedGraph) (f : ScoreFn) :
    Obj (BestFirstIter.next (H := H) g f) (bestFirst g f) (fun s => s.queue.pop = none) := by
  refine .of_pop _ (fun s => ?_) (fun n s h => ?_) (fun n s h => ?_)
  · unfold bestFirst BestFirstIter.next
    cases s.queue.pop with
    | none => rfl
    | some p =>
      funext n
      simp only [Prog.bind, Prog.lift]
      cases p.1.path.last with
      | none => rfl
      | some v =>
        simp only [Run.unwrap, Run.bind_done]
        cases Run.forEach (BestFirstIter.visit g f p.1) ⟨p.2, s.visited⟩ (g.outs v) <;> rfl
  · unfold BestFirstIter.next at h
    cases hp : s.queue.pop with
    | none => rfl
    | some p =>
      rw [hp] at h
      simp only [Prog.lift] at h
      cases hl : p.1.path.last with
      | none => rw [hl] at h; cases h
      | some v =>
        rw [hl] at h
        simp only [Run.unwrap, Run.bind_done] at h
        cases hf : Run.forEach (BestFirstIter.visit g f p.1) ⟨p.2, s.visited⟩ (g.outs v) <;> rw [hf] at h <;> cases h
  · unfold BestFirstIter.next; rw [h]; rfl

theorem constrained_obj {H : ScoredHeap} (g : DirectedGraph) (f : ScoreFn) (cs : List Constraint) :
    Obj (ConstrainedBestFirstIter.next (H := H) g f cs) (constrained g f cs) (fun s => s.queue.pop = none) := by
  refine .of_pop _ (fun s => ?_) (fun n s h => ?_) (fun n s h => ?_)
  · unfold constrained ConstrainedBestFirstIter.next
    cases s.queue.pop with
    | none => rfl
    | some p =>
      funext n
      simp only [Prog.bind, Prog.lift]
      cases p.1.path.last with
      | none => rfl
      | some v =>
        simp only [Run.unwrap, Run.bind_done]
        cases Run.forEach (ConstrainedBestFirstIter.visit g f cs p.1) ⟨p.2⟩ (g.outs v) <;> rfl
  · unfold ConstrainedBestFirstIter.next at h
    cases hp : s.queue.pop with
    | none => rfl
    | some p =>
      rw [hp] at h
      simp only [Prog.lift] at h
      cases hl : p.1.path.last with
      | none => rw [hl] at h; cases h
      | some v =>
        rw [hl] at h
        simp only [Run.unwrap, Run.bind_done] at h
        cases hf : Run.forEach (ConstrainedBestFirstIter.visit g f cs p.1) ⟨p.2⟩ (g.outs v) <;> rw [hf] at h <;> cases h
  · unfold ConstrainedBestFirstIter.next; rw [h]; rfl

/-- Two loops that differ only in how they report the end. -/
theorem loop_obj {step : σ → Prog (σ ⊕ Option (α × σ))} {cstep : σ → Prog (σ ⊕ (Option α × σ))} {End : σ → Prop}
    (h1 : ∀ n s s', step s n = .done (.inl s') → cstep s n = .done (.inl s'))
    (h2 : ∀ n s x s', step s n = .done (.inr (some (x, s'))) → cstep s n = .done (.inr (some x, s')))
    (h3 : ∀ n s, step s n = .done (.inr none) → ∃ s', cstep s n = .done (.inr (none, s')))
    (h4 : ∀ n s s', cstep s n = .done (.inr (none, s')) → End s')
    (h5 : ∀ n s, End s → cstep s (n + 1) = .done (.inr (none, s))) : Obj (Prog.loop step) (Prog.loop cstep) End := by
  refine ⟨?_, ?_, ?_, ?_⟩
  · intro n s x s' h
    unfold Prog.loop at h ⊢
    suffices key : ∀ k s, Prog.loopAux step n k s = .done (some (x, s')) → Prog.loopAux cstep n k s = .done (some x, s') from key n s h
    intro k
    induction k with
    | zero => intro s h; cases h
    | succ k ih =>
      intro s h
      rw [Prog.loopAux] at h ⊢
      cases hs : step s n with
      | running => rw [hs] at h; cases h
      | panicked => rw [hs] at h; cases h
      | done r =>
        rw [hs] at h
        cases r with
        | inl t => rw [h1 _ _ _ hs]; exact ih t h
        | inr r => cases h; rw [h2 _ _ _ _ hs]
  · intro n s h
    unfold Prog.loop at h ⊢
    suffices key : ∀ k s, Prog.loopAux step n k s = .done none → ∃ s', Prog.loopAux cstep n k s = .done (none, s') from key n s h
    intro k
    induction k with
    | zero => intro s h; cases h
    | succ k ih =>
      intro s h
      rw [Prog.loopAux] at h ⊢
      cases hs : step s n with
      | running => rw [hs] at h; cases h
      | panicked => rw [hs] at h; cases h
      | done r =>
        rw [hs] at h
        cases r with
        | inl t => rw [h1 _ _ _ hs]; exact ih t h
        | inr r => cases h; obtain ⟨s', hs'⟩ := h3 _ _ hs; rw [hs']; exact ⟨s', rfl⟩
  · intro n s s' h
    unfold Prog.loop at h
    suffices key : ∀ k s, Prog.loopAux cstep n k s = .done (none, s') → End s' from key n s h
    intro k
    induction k with
    | zero => intro s h; cases h
    | succ k ih =>
      intro s h
      rw [Prog.loopAux] at h
      cases hs : cstep s n with
      | running => rw [hs] at h; cases h
      | panicked => rw [hs] at h; cases h
      | done r =>
        rw [hs] at h
        cases r with
        | inl t => exact ih t h
        | inr r => cases h; exact h4 _ _ _ hs
  · intro n s he
    unfold Prog.loop
    rw [Prog.loopAux, h5 n s he]

theorem cycle_obj (g : DirectedGraph) : Obj (CycleIter.next g) (cycle g) (fun s => s.stack.pop = none) := by
  have step_eq : ∀ s, cycleStep g s = Prog.bind (CycleIter.step g s) fun r => match r with
      | .inl s' => Prog.ret (.inl s')
      | .inr none => Prog.ret (.inr (none, s))
      | .inr (some (x, s')) => Prog.ret (.inr (some x, s')) := by
    intro s
    unfold cycleStep CycleIter.step
    cases s.stack.pop with
    | none => rfl
    | some p =>
      funext n
      simp only [Prog.bind, Prog.lift]
      cases CycleIter.extractCanonicalCycleFromLast p.1 with
      | running => rfl
      | panicked => rfl
      | done r =>
        cases r with
        | some c =>
          simp only [Run.bind_done]
          split <;> rfl
        | none =>
          simp only [Run.bind_done]
          cases CycleIter.pushNext g p.1 p.2 <;> rfl
  have step_none : ∀ n s, CycleIter.step g s n = .done (.inr none) → s.stack.pop = none := by
    intro n s h
    unfold CycleIter.step at h
    cases hp : s.stack.pop with
    | none => rfl
    | some p =>
      rw [hp] at h
      simp only [Prog.lift] at h
      cases hx : CycleIter.extractCanonicalCycleFromLast p.1 with
      | running => rw [hx] at h; cases h
      | panicked => rw [hx] at h; cases h
      | done r =>
        rw [hx] at h
        cases r with
        | some c =>
          simp only [Run.bind_done] at h
          split at h <;> cases h
        | none =>
          simp only [Run.bind_done] at h
          cases hq : CycleIter.pushNext g p.1 p.2 <;> rw [hq] at h <;> cases h
  refine loop_obj ?_ ?_ ?_ ?_ ?_
  · intro n s s' h; rw [step_eq]; show (CycleIter.step g s n).bind _ = _; rw [h]; rfl
  · intro n s x s' h; rw [step_eq]; show (CycleIter.step g s n).bind _ = _; rw [h]; rfl
  · intro n s h; refine ⟨s, ?_⟩; rw [step_eq]; show (CycleIter.step g s n).bind _ = _; rw [h]; rfl
  · intro n s s' h
    rw [step_eq] at h
    change (CycleIter.step g s n).bind _ = _ at h
    cases hs : CycleIter.step g s n with
    | running => rw [hs] at h; cases h
    | panicked => rw [hs] at h; cases h
    | done r =>
      rw [hs] at h
      rcases r with t | r
      · cases h
      · cases r with
        | none => cases h; exact step_none _ _ hs
        | some p => cases h
  · intro n s he; unfold cycleStep; rw [he]; rfl

theorem Obj.filter {next : σ → Prog (Option (α × σ))} {call : σ → Prog (Option α × σ)} {End : σ → Prop} (h : Obj next call End)
    (p : α → Bool) : Obj (Prog.filterNext p next) (filter p call) End := by
  refine loop_obj ?_ ?_ ?_ ?_ ?_
  · intro n s s' hs
    change (next s n).bind _ = _ at hs
    show (call s n).bind _ = _
    cases hn : next s n with
    | running => rw [hn] at hs; cases hs
    | panicked => rw [hn] at hs; cases hs
    | done r =>
      rw [hn] at hs
      cases r with
      | none => cases hs
      | some q =>
        rw [h.item _ _ _ _ hn]
        simp only [Run.bind_done] at hs ⊢
        split at hs
        · cases hs
        · rename_i hp; rw [if_neg hp]; cases hs; rfl
  · intro n s x s' hs
    change (next s n).bind _ = _ at hs
    show (call s n).bind _ = _
    cases hn : next s n with
    | running => rw [hn] at hs; cases hs
    | panicked => rw [hn] at hs; cases hs
    | done r =>
      rw [hn] at hs
      cases r with
      | none => cases hs
      | some q =>
        rw [h.item _ _ _ _ hn]
        simp only [Run.bind_done] at hs ⊢
        split at hs
        · rename_i hp; rw [if_pos hp]; cases hs; rfl
        · cases hs
  · intro n s hs
    change (next s n).bind _ = _ at hs
    cases hn : next s n with
    | running => rw [hn] at hs; cases hs
    | panicked => rw [hn] at hs; cases hs
    | done r =>
      rw [hn] at hs
      cases r with
      | none =>
        obtain ⟨s', hc⟩ := h.finish _ _ hn
        refine ⟨s', ?_⟩
        show (call s n).bind _ = _
        rw [hc]; rfl
      | some q =>
        simp only [Run.bind_done] at hs
        split at hs <;> cases hs
  · intro n s s' hs
    change (call s n).bind _ = _ at hs
    cases hc : call s n with
    | running => rw [hc] at hs; cases hs
    | panicked => rw [hc] at hs; cases hs
    | done r =>
      rw [hc] at hs
      obtain ⟨a, t⟩ := r
      cases a with
      | none => cases hs; exact h.ended _ _ _ hc
      | some x =>
        simp only [Run.bind_done] at hs
        split at hs <;> cases hs
  · intro n s he
    show (call s (n + 1)).bind _ = _
    rw [h.stays n s he]; rfl

theorem Obj.flatMap {next : σ → Prog (Option (α × σ))} {call : σ → Prog (Option α × σ)} {End : σ → Prop} (h : Obj next call End)
    (f : ι → σ) : Obj (Prog.flatMapNext f next) (flatMap f call) (fun s => s = ([], none)) := by
  refine loop_obj ?_ ?_ ?_ ?_ ?_
  · rintro n ⟨is, t⟩ s' hs
    cases t with
    | none =>
      cases is with
      | nil => cases hs
      | cons i is => cases hs; rfl
    | some t =>
      change (next t n).bind _ = _ at hs
      show (call t n).bind _ = _
      cases hn : next t n with
      | running => rw [hn] at hs; cases hs
      | panicked => rw [hn] at hs; cases hs
      | done r =>
        rw [hn] at hs
        cases r with
        | none =>
          obtain ⟨t', hc⟩ := h.finish _ _ hn
          rw [hc]; cases hs; rfl
        | some q => cases hs
  · rintro n ⟨is, t⟩ x s' hs
    cases t with
    | none =>
      cases is with
      | nil => cases hs
      | cons i is => cases hs
    | some t =>
      change (next t n).bind _ = _ at hs
      show (call t n).bind _ = _
      cases hn : next t n with
      | running => rw [hn] at hs; cases hs
      | panicked => rw [hn] at hs; cases hs
      | done r =>
        rw [hn] at hs
        cases r with
        | none => cases hs
        | some q =>
          rw [h.item _ _ _ _ hn]
          cases hs; rfl
  · rintro n ⟨is, t⟩ hs
    cases t with
    | none =>
      cases is with
      | nil => exact ⟨_, rfl⟩
      | cons i is => cases hs
    | some t =>
      change (next t n).bind _ = _ at hs
      cases hn : next t n with
      | running => rw [hn] at hs; cases hs
      | panicked => rw [hn] at hs; cases hs
      | done r =>
        rw [hn] at hs
        cases r with
        | none => cases hs
        | some q => cases hs
  · rintro n ⟨is, t⟩ s' hs
    cases t with
    | none =>
      cases is with
      | nil => cases hs; rfl
      | cons i is => cases hs
    | some t =>
      change (call t n).bind _ = _ at hs
      cases hc : call t n with
      | running => rw [hc] at hs; cases hs
      | panicked => rw [hc] at hs; cases hs
      | done r =>
        rw [hc] at hs
        obtain ⟨a, t⟩ := r
        cases a with
        | none => cases hs
        | some x => cases hs
  · rintro n s rfl; rfl

theorem hamiltonian_obj (g : DirectedGraph) : Obj (Hamiltonian.next g) (hamiltonian g) (fun s => s = ([], none)) :=
  ((depthFirstPath_obj g).flatMap DepthFirstPathIter.from_).filter _

end Objects
end GC
