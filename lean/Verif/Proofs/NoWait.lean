/-
Processes that run at the same time do not wait for each other: the number of steps each of them still has to make goes down with every one
of its own steps, and the steps of others do not change it.
-/
import Verif.Spec.NoWait
import Verif.Proofs.DuringBuild
import Verif.Proofs.Pieces
import Mathlib.Algebra.BigOperators.Group.Finset.Piecewise
import Mathlib.Algebra.Order.BigOperators.Group.Finset
namespace GC
namespace Unlink
open Store Text Format Concurrent

variable {nd : Char → Bool} {order : Nat → DirectedGraph → DirectedGraph} {root : FPath} {jobs : List Job}

/-! ### Number of `write` calls -/

/-- `write` calls made or certain to be made. -/
def due (w : BufWriter) : Nat := w.writes.length + if w.buffer = [] then 0 else 1

theorem due_flush (w : BufWriter) : due w.flush = due w := by
  unfold due BufWriter.flush
  by_cases h : w.buffer = [] <;> simp [h]

theorem due_write (w : BufWriter) (t : Text) : due (w.write t) ≤ due w + 1 := by
  have key : ∀ w' : BufWriter, due w' = due w →
      due (if t.length ≥ bufCapacity then ⟨w'.writes ++ [t], w'.buffer⟩ else ⟨w'.writes, w'.buffer ++ t⟩) ≤ due w + 1 := by
    intro w' e
    rw [← e]
    unfold due
    split
    · simp only [List.length_append, List.length_singleton]; omega
    · dsimp only
      split <;> split <;> omega
  refine key (if w.buffer.length + t.length > bufCapacity then w.flush else w) ?_
  split
  · exact due_flush w
  · rfl

theorem due_foldl (ps : List Text) : ∀ w : BufWriter, due (ps.foldl BufWriter.write w) ≤ due w + ps.length := by
  induction ps with
  | nil => exact fun w => Nat.le_refl _
  | cons p ps ih =>
    intro w
    have h1 := ih (w.write p)
    have h2 := due_write w p
    rw [List.foldl_cons, List.length_cons]
    omega

theorem bufferedWrites_length (ps : List Text) : (bufferedWrites ps).length ≤ ps.length := by
  have h := due_foldl ps ⟨[], []⟩
  have e := due_flush (ps.foldl BufWriter.write ⟨[], []⟩)
  have : (bufferedWrites ps).length ≤ due (ps.foldl BufWriter.write ⟨[], []⟩).flush := Nat.le_add_right _ _
  have h0 : due ⟨[], []⟩ = 0 := rfl
  omega

theorem length_flatMap_const {α β : Type} (f : α → List β) (k : Nat) (hf : ∀ a, (f a).length = k) (l : List α) : (l.flatMap f).length = k * l.length := by
  induction l with
  | nil => simp
  | cons a l ih => rw [List.flatMap_cons, List.length_append, ih, hf, List.length_cons, Nat.mul_add]; omega

theorem addWrites_length (cs : List GraphCommand) : (addWrites cs).length ≤ 2 * cs.length := by
  refine Nat.le_trans (bufferedWrites_length _) ?_
  rw [length_flatMap_const _ 2 (fun _ => rfl)]

theorem saveWrites_length (g : DirectedGraph) : (saveWrites g).length ≤ 3 * g.vertices.length + 5 * g.edges.length := by
  refine Nat.le_trans (bufferedWrites_length _) ?_
  rw [List.length_append, length_flatMap_const _ 3 (fun _ => rfl), length_flatMap_const _ 5 (fun _ => rfl)]

/-! ### Size of a graph that was loaded -/

/-- Vertices named by a command. -/
def named : GraphCommand → List VertexId
  | .AddVertex v => [v]
  | .RemoveVertex v => [v]
  | .AddEdge u v => [u, v]
  | .RemoveEdge u v => [u, v]

/-- Edge named by a command. -/
def namedEdge : GraphCommand → Option Edge
  | .AddEdge u v => some ⟨u, v⟩
  | _ => none

theorem run_named (cs : List GraphCommand) : ∀ G : SetGraph,
    (∀ v, (G.run cs).V v → G.V v ∨ v ∈ cs.flatMap named) ∧ ∀ e, (G.run cs).E e → G.E e ∨ e ∈ cs.filterMap namedEdge := by
  induction cs with
  | nil => exact fun G => ⟨fun v h => .inl h, fun e h => .inl h⟩
  | cons c cs ih =>
    intro G
    obtain ⟨h1, h2⟩ := ih (G.step c)
    constructor
    · intro v hv
      rw [List.flatMap_cons, List.mem_append]
      rcases h1 v hv with h | h
      · cases c <;> simp only [SetGraph.step, named, List.mem_cons, List.not_mem_nil, or_false] at h ⊢ <;> tauto
      · exact .inr (.inr h)
    · intro e he
      rcases h2 e he with h | h
      · cases c <;> simp only [SetGraph.step, namedEdge, List.filterMap_cons] at h ⊢ <;> (try simp only [List.mem_cons]) <;> tauto
      · right
        rw [List.filterMap_cons]
        split
        · exact h
        · exact List.mem_cons_of_mem _ h

theorem length_named (cs : List GraphCommand) : (cs.flatMap named).length ≤ 2 * cs.length := by
  induction cs with
  | nil => simp
  | cons c cs ih =>
    have : (named c).length ≤ 2 := by cases c <;> simp [named]
    rw [List.flatMap_cons, List.length_append, List.length_cons]
    omega

theorem loaded_size (cs : List GraphCommand) :
    (GraphCommand.applyCommands cs .new).vertices.length ≤ 2 * cs.length ∧ (GraphCommand.applyCommands cs .new).edges.length ≤ cs.length := by
  have hw : WF (GraphCommand.applyCommands cs .new) := (Built.new.applyCommands cs).wf
  have ht := toSet_applyCommands WF.new cs
  rw [toSet_new] at ht
  obtain ⟨h1, h2⟩ := run_named cs SetGraph.empty
  constructor
  · refine Nat.le_trans (List.Nodup.length_le_of_subset (l₂ := cs.flatMap named) hw.nodup_vertices fun v hv => ?_) (length_named cs)
    have : (GraphCommand.applyCommands cs .new).toSet.V v := mem_vertices.1 hv
    rw [ht] at this
    exact (h1 v this).resolve_left id
  · refine Nat.le_trans (List.Nodup.length_le_of_subset (l₂ := cs.filterMap namedEdge) hw.nodup_edges fun e he => ?_) (List.length_filterMap_le _ _)
    have : (GraphCommand.applyCommands cs .new).toSet.E e := hw.mem_edges.1 he
    rw [ht] at this
    exact (h2 e this).resolve_left id

theorem linesAux_length (t : Text) : ∀ cur : Text, (linesAux cur t).length ≤ t.length + if cur = [] then 0 else 1 := by
  induction t with
  | nil => intro cur; cases cur <;> simp [linesAux]
  | cons c t ih =>
    intro cur
    rw [linesAux]
    split
    · have := ih []
      simp only [List.length_cons, ↓reduceIte] at this ⊢
      omega
    · have := ih (cur ++ [c])
      rw [if_neg (by simp)] at this
      rw [List.length_cons]
      omega

theorem lines_length (t : Text) : (lines t).length ≤ t.length := by
  have := linesAux_length t []
  rwa [if_pos rfl] at this

/-- Number of characters a reader got. -/
def readerSize (r : Reader) : Nat := (r.closed.map List.length).sum + r.current.length

theorem readerLines_length (r : Reader) : r.lines.length ≤ readerSize r := by
  unfold Reader.lines readerSize
  rw [List.length_append]
  have h1 := lines_length r.current
  have h2 : ∀ l : List Text, (l.flatMap lines).length ≤ (l.map List.length).sum := by
    intro l
    induction l with
    | nil => simp
    | cons t l ih =>
      have := lines_length t
      rw [List.flatMap_cons, List.length_append, List.map_cons, List.sum_cons]
      omega
  have := h2 r.closed
  omega

theorem readsAs_length {parse : Text → Run (Except Text GraphCommand)} {ls : List Text} {cs : List GraphCommand} (h : ReadsAs parse ls cs) :
    cs.length ≤ ls.length := by
  induction h with
  | nil => simp
  | skip _ _ ih => rw [List.length_cons]; omega
  | cons _ _ _ ih => simp only [List.length_cons]; omega

theorem loadLines_size {ls : List Text} {g : DirectedGraph} (h : loadLines nd ls = .done (.ok g)) :
    g.vertices.length ≤ 2 * ls.length ∧ g.edges.length ≤ ls.length := by
  rcases loadLines_cases nd ls with ⟨cs, h1, h2⟩ | h1 | ⟨e, h1⟩
  · rw [h2] at h
    cases h
    have := readsAs_length h1
    have := loaded_size cs
    omega
  · rw [h1] at h; cases h
  · rw [h1] at h; cases h

theorem order_size {f : DirectedGraph → DirectedGraph} (hf : IsOrder f) (g : DirectedGraph) :
    (f g).vertices.length = g.vertices.length ∧ (f g).edges.length = g.edges.length := by
  have h := hf g
  exact ⟨((h.map _).length_eq).symm, ((h.flatMap_right _).length_eq).symm⟩

/-! ### Counting down -/

/-- `L pc n`: at `pc` the process has at most `n` steps to make. If this holds at the start with `n`, and every step of the process takes one
off, then it holds with one less for every step the process made. -/
theorem run_left {i : Nat} {job : Job} (hj : jobs[i]? = some job) {fs : FS} (P : World → Prop) (L : Pc → Nat → Prop) (n : Nat) (h0 : L .start n)
    (hstep : ∀ w pc k, P w → L pc k → L (stepJob nd (order i) root job pc w).2 (k - 1)) (schedule : List Nat) :
    (∀ p, p <+: schedule → P (run nd order root jobs p fs).world) → L ((run nd order root jobs schedule fs).pc i) (n - schedule.count i) := by
  induction schedule using List.reverseRecOn with
  | nil => exact fun _ => h0
  | append_singleton l j ih =>
    intro hP
    have h := ih fun p hp => hP p (hp.trans (List.prefix_append _ _))
    have e : run nd order root jobs (l ++ [j]) fs = step nd order root jobs (run nd order root jobs l fs) j := by
      unfold run
      rw [List.foldl_append]
      rfl
    rw [e, List.count_append]
    by_cases hji : j = i
    · subst hji
      have hs := hstep _ _ _ (hP l (List.prefix_append _ _)) h
      unfold step
      rw [hj]
      simp only [↓reduceIte, List.count_singleton_self]
      rw [← Nat.sub_sub]
      exact hs
    · have : ([j].count i) = 0 := by simp [hji]
      rw [this, Nat.add_zero]
      have e2 : (step nd order root jobs (run nd order root jobs l fs) j).pc i = (run nd order root jobs l fs).pc i := by
        unfold step
        split
        · rfl
        · dsimp only
          rw [if_neg (fun h => hji h.symm)]
      rw [e2]
      exact h

/-- gc-add and gc-delete with `k` `write` calls. -/
def leftAdd (k : Nat) (pc : Pc) (n : Nat) : Prop :=
  match pc with
  | .start => k + 5 ≤ n
  | .dirs => k + 4 ≤ n
  | .locked => k + 3 ≤ n
  | .writing _ rest => rest.length + 2 ≤ n
  | .unlocking _ => 1 ≤ n
  | .finished _ => True
  | _ => False

theorem leftAdd_step (cs : List GraphCommand) (w : World) (pc : Pc) (n : Nat) (h : leftAdd (addWrites cs).length pc n) :
    leftAdd (addWrites cs).length (stepAdd root cs pc w).2 (n - 1) := by
  unfold leftAdd at h
  split at h
  · simp only [stepAdd, stepLock, leftAdd]; omega
  · simp only [stepAdd, stepLock]
    split <;> simp only [leftAdd]
    omega
  · simp only [stepAdd]
    split <;> simp only [leftAdd] <;> omega
  · rename_i rest
    cases rest with
    | nil => simp only [stepAdd, leftAdd]; simp at h; omega
    | cons t rest => simp only [stepAdd, leftAdd]; simp at h; omega
  · simp only [stepAdd, stepUnlock]
    split
    · rename_i ok _ _ _
      cases ok <;> simp [leftAdd]
    · simp [leftAdd]
  · simp only [stepAdd, leftAdd]
  · exact h.elim

/-- gc-init. -/
def leftInit (pc : Pc) (n : Nat) : Prop :=
  match pc with
  | .start => 2 ≤ n
  | .dirs => 1 ≤ n
  | .finished _ => True
  | _ => False

theorem leftInit_step (w : World) (pc : Pc) (n : Nat) (h : leftInit pc n) : leftInit (stepInit root pc w).2 (n - 1) := by
  unfold leftInit at h
  split at h
  · simp only [stepInit, leftInit]; omega
  · simp only [stepInit, initFile]
    split <;> simp only [leftInit]
  · simp only [stepInit, leftInit]
  · exact h.elim

/-- gc-clean, followed by `k` more steps. -/
def leftClean (k : Nat) (pc : Pc) (n : Nat) : Prop :=
  match pc with
  | .start => k + 7 ≤ n
  | .dirs => k + 6 ≤ n
  | .locked => k + 5 ≤ n
  | .listed true => k + 4 ≤ n
  | .listed false => k + 3 ≤ n
  | .emptied => k + 2 ≤ n
  | .unlocking _ => k + 1 ≤ n
  | .finished _ => True
  | _ => False

theorem leftClean_step {k : Nat} (w : World) (pc : Pc) (n : Nat) (hu : ∀ ok, pc ≠ .unlocking ok) (h : leftClean k pc n) :
    leftClean k (stepClean root pc w).2 (n - 1) := by
  unfold leftClean at h
  split at h
  · simp only [stepClean, stepLock, leftClean]; omega
  · simp only [stepClean, stepLock]
    split <;> simp only [leftClean]
    omega
  · simp only [stepClean, stepRemove]
    split
    · generalize (w.fs (commandPath root)).isSome = b
      cases b <;> simp only [leftClean] <;> omega
    · simp only [leftClean]; omega
  · simp only [stepClean, stepRemove]
    split <;> simp only [leftClean] <;> omega
  · simp only [stepClean, stepRemove, leftClean]; omega
  · simp only [stepClean, stepRemove]
    split <;> simp only [leftClean] <;> omega
  · exact absurd rfl (hu _)
  · simp only [stepClean, stepRemove, leftClean]
  · exact h.elim

theorem leftClean_unlock (w : World) (ok : Bool) (n : Nat) : leftClean 0 (stepClean root (.unlocking ok) w).2 n := by
  simp only [stepClean, stepUnlock]
  split
  · cases ok <;> simp [leftClean]
  · simp [leftClean]

/-- Saving the graph `g`. -/
def leftSave (g : DirectedGraph) (pc : Pc) (n : Nat) : Prop :=
  match pc with
  | .loaded g' => g' = g ∧ (saveWrites g).length + 2 ≤ n
  | .rewriting _ _ rest => rest.length + 1 ≤ n
  | .finished _ => True
  | _ => False

theorem leftSave_step {g : DirectedGraph} (w : World) (pc : Pc) (n : Nat) (h : leftSave g pc n) : leftSave g (stepSave root pc w).2 (n - 1) := by
  unfold leftSave at h
  split at h
  · obtain ⟨rfl, h⟩ := h
    simp only [stepSave]
    split <;> simp only [leftSave]
    omega
  · rename_i rest
    cases rest with
    | nil => simp only [stepSave, leftSave]
    | cons t rest => simp only [stepSave, leftSave]; simp at h; omega
  · simp only [stepSave, leftSave]
  · exact h.elim

/-- gc-random with the graph `g`. -/
def leftRandom (g : DirectedGraph) (pc : Pc) (n : Nat) : Prop :=
  match pc with
  | .initialising => (saveWrites g).length + 4 ≤ n
  | .initDirs => (saveWrites g).length + 3 ≤ n
  | .loaded g' => leftSave g (.loaded g') n
  | .rewriting h o r => leftSave g (.rewriting h o r) n
  | pc => leftClean ((saveWrites g).length + 4) pc n

theorem leftRandom_step {g : DirectedGraph} (w : World) (pc : Pc) (n : Nat) (h : leftRandom g pc n) :
    leftRandom g (stepRandom root g pc w).2 (n - 1) := by
  have hs : ∀ {pc n}, leftSave g pc n → leftRandom g pc n := by
    intro pc n h
    unfold leftSave at h
    split at h <;> first | exact h | exact h.elim
  have hcl : ∀ {pc n}, leftClean ((saveWrites g).length + 4) pc n → leftRandom g pc n := by
    intro pc n h
    unfold leftClean at h
    split at h <;> first | exact h | exact h.elim
  unfold leftRandom at h
  split at h
  · simp only [stepRandom, leftRandom]; omega
  · simp only [stepRandom, initFile]
    split
    · simp only [leftRandom, leftSave, true_and]; omega
    · simp only [leftRandom, leftClean]
  · rename_i g'
    rw [show stepRandom root g (.loaded g') w = stepSave root (.loaded g') w from rfl]
    exact hs (leftSave_step w _ n h)
  · rename_i a o r
    rw [show stepRandom root g (.rewriting a o r) w = stepSave root (.rewriting a o r) w from rfl]
    exact hs (leftSave_step w _ n h)
  · rename_i h1 h2 h3 h4
    by_cases hu : ∃ ok, pc = .unlocking ok
    · obtain ⟨ok, rfl⟩ := hu
      simp only [leftClean] at h
      simp only [stepRandom, stepUnlock]
      split
      · cases ok
        · simp [leftRandom, leftClean]
        · simp only [↓reduceIte, leftRandom]; omega
      · simp [leftRandom, leftClean]
    · have e : stepRandom root g pc w = stepClean root pc w := by
        cases pc <;> first | rfl | (exact absurd rfl h1) | (exact absurd rfl h2) | (exact absurd rfl (h3 _)) | (exact absurd rfl (h4 _ _ _)) | (exact absurd ⟨_, rfl⟩ hu)
      rw [e]
      exact hcl (leftClean_step w pc n (fun ok e => hu ⟨ok, e⟩) h)

/-! ### Readers -/

/-- A reader that has still to read from a file of at most `size` characters. -/
def leftReader (size : Nat) (r : Reader) : Nat :=
  2 * (size - r.offset) + if r.current = [] ∨ r.current.getLast? = some '\n' then 1 else 2

/-- What a reader has read it found in the file. -/
def ReaderOk (size : Nat) (r : Reader) : Prop := readerSize r ≤ r.offset ∧ r.offset ≤ size

theorem stepRead_left {size : Nat} {w : World} (hw : ∀ h t, w.content root h = some t → t.length ≤ size) (h : Nat) {r : Reader}
    (hr : ReaderOk size r) :
    (∃ r', stepRead nd root h r w = .more r' ∧ ReaderOk size r' ∧ leftReader size r' + 1 ≤ leftReader size r) ∨
    stepRead nd root h r w = .returned (loadLines nd r.lines) ∨ stepRead nd root h r w = .returned .panicked := by
  unfold stepRead
  cases hc : w.content root h with
  | none => exact .inr (.inr rfl)
  | some c =>
    have hlen := hw h c hc
    have hch : (readChunk c r.offset).length ≤ c.length - r.offset := by
      unfold readChunk
      rw [List.length_take, List.length_drop]
      omega
    dsimp only
    by_cases h1 : readChunk c r.offset = []
    · rw [if_neg (by simp [h1])]
      by_cases h2 : r.current = [] ∨ r.current.getLast? = some '\n'
      · rw [if_pos h2]; exact .inr (.inl rfl)
      · rw [if_neg h2]
        refine .inl ⟨_, rfl, ⟨?_, hr.2⟩, ?_⟩
        · have := hr.1
          unfold readerSize at this ⊢
          simp only [List.map_append, List.sum_append, List.map_cons, List.map_nil, List.sum_cons, List.sum_nil, List.length_nil]
          omega
        · unfold leftReader
          rw [if_neg h2]
          simp
    · rw [if_pos h1]
      have hpos : 0 < (readChunk c r.offset).length := List.length_pos_iff.2 h1
      refine .inl ⟨_, rfl, ⟨?_, ?_⟩, ?_⟩
      · have := hr.1
        unfold readerSize at this ⊢
        simp only [List.length_append]
        omega
      · dsimp only; omega
      · unfold leftReader
        dsimp only
        split <;> split <;> omega

/-- Queries. -/
def leftQuery (size : Nat) (pc : Pc) (n : Nat) : Prop :=
  match pc with
  | .start => 2 * size + 2 ≤ n
  | .reading _ r => ReaderOk size r ∧ leftReader size r ≤ n
  | .answered _ => True
  | _ => False

theorem readerOk_start (size : Nat) : ReaderOk size ⟨[], [], 0⟩ := ⟨by simp [readerSize], Nat.zero_le _⟩
theorem leftReader_start (size : Nat) : leftReader size ⟨[], [], 0⟩ = 2 * size + 1 := by simp [leftReader]

theorem leftQuery_step {size : Nat} (w : World) (hw : ∀ h t, w.content root h = some t → t.length ≤ size) (pc : Pc) (n : Nat)
    (h : leftQuery size pc n) : leftQuery size (stepQuery nd root pc w).2 (n - 1) := by
  unfold leftQuery at h
  split at h
  · simp only [stepQuery, stepOpen, Concurrent.stepOpen]
    cases w.fs (commandPath root) with
    | none => simp [leftQuery]
    | some x =>
      cases x with
      | dir => simp [leftQuery]
      | file c =>
        simp only [leftQuery]
        refine ⟨readerOk_start _, ?_⟩
        rw [leftReader_start]; omega
  · rename_i a r
    rcases stepRead_left (nd := nd) hw a h.1 with ⟨r', e, h1, h2⟩ | e | e
    · simp only [stepQuery, e, leftQuery]
      exact ⟨h1, by omega⟩
    · simp only [stepQuery, e, leftQuery]
    · simp only [stepQuery, e, leftQuery]
  · simp only [stepQuery, leftQuery]
  · exact h.elim

/-- gc-build. -/
def leftBuild (size : Nat) (pc : Pc) (n : Nat) : Prop :=
  match pc with
  | .start => 13 * size + 4 ≤ n
  | .reading _ r => ReaderOk size r ∧ leftReader size r + 11 * size + 2 ≤ n
  | .loaded g => (saveWrites g).length + 2 ≤ n
  | .rewriting _ _ rest => rest.length + 1 ≤ n
  | .finished _ => True
  | _ => False

theorem leftBuild_step {f : DirectedGraph → DirectedGraph} (hf : IsOrder f) {size : Nat} (w : World)
    (hw : ∀ h t, w.content root h = some t → t.length ≤ size) (pc : Pc) (n : Nat) (h : leftBuild size pc n) :
    leftBuild size (stepBuild nd f root pc w).2 (n - 1) := by
  unfold leftBuild at h
  split at h
  · simp only [stepBuild, stepOpen, Concurrent.stepOpen]
    cases w.fs (commandPath root) with
    | none => simp [leftBuild]
    | some x =>
      cases x with
      | dir => simp [leftBuild]
      | file c =>
        simp only [leftBuild]
        refine ⟨readerOk_start _, ?_⟩
        rw [leftReader_start]; omega
  · rename_i a r
    rcases stepRead_left (nd := nd) hw a h.1 with ⟨r', e, h1, h2⟩ | e | e
    · simp only [stepBuild, e, leftBuild]
      exact ⟨h1, by omega⟩
    · simp only [stepBuild, e]
      split
      · cases ‹LoadStep.returned _ = LoadStep.more _›
      · rename_i g hg
        rw [LoadStep.returned.injEq] at hg
        have h1 := loadLines_size hg
        have h2 := order_size hf g
        have h3 := saveWrites_length (f g)
        have h4 := readerLines_length r
        have h5 := h.1.1
        have h6 := h.1.2
        have h7 : 1 ≤ leftReader size r := by unfold leftReader; split <;> omega
        simp only [leftBuild]
        omega
      · simp only [leftBuild]
    · simp only [stepBuild, e, leftBuild]
  · simp only [stepBuild, stepSave]
    split <;> simp only [leftBuild]
    omega
  · rename_i rest
    cases rest with
    | nil => simp only [stepBuild, stepSave, leftBuild]
    | cons t rest => simp only [stepBuild, stepSave, leftBuild]; simp at h; omega
  · simp only [stepBuild, stepSave, leftBuild]
  · exact h.elim

/-! ### Sizes of the files -/

theorem effect_future {w w' : World} (e : Effect root w w') (h : ∀ k, w.gen < k → w.orphan k = []) : ∀ k, w'.gen < k → w'.orphan k = [] := by
  intro k hk
  cases e with
  | same h1 h2 h3 => rw [h3]; exact h k (by omega)
  | create h1 h2 h3 h4 => rw [h4]; exact h k (by omega)
  | remove c h1 h2 h3 h4 =>
    rw [h4]
    dsimp only
    rw [if_neg (by omega)]
    exact h k (by omega)

/-- There is nothing in command files that are not yet there. -/
theorem future_step (ho : NoRewrite jobs) {c : Text} {p : Piece.Past} {W : Piece.Log} {s : Sys} (hI : Piece.Inv nd root jobs c p W s)
    (h : ∀ k, s.world.gen < k → s.world.orphan k = []) (i : Nat) :
    ∀ k, (step nd order root jobs s i).world.gen < k → (step nd order root jobs s i).world.orphan k = [] := by
  unfold step
  cases hj : jobs[i]? with
  | none => exact h
  | some job =>
    dsimp only
    cases job with
    | build => exact absurd hj (ho.1 i)
    | random g => exact absurd hj (ho.2 i g)
    | init => exact effect_future (effect_init s.world (s.pc i)) h
    | clean => exact effect_future (effect_clean s.world hI.world.not_dir (s.pc i)) h
    | query =>
      refine effect_future (root := root) (w := s.world) ?_ h
      have : (stepJob nd (order i) root .query (s.pc i) s.world).1 = s.world := by
        dsimp only [stepJob, stepQuery]
        split <;> (try split) <;> rfl
      rw [this]
      exact .refl _
    | add cs =>
      have hpi := hI.proc i _ hj
      dsimp only [stepJob]
      generalize hpc : s.pc i = pc at hpi
      cases pc with
      | start => exact effect_future (effect_lock s.world .start) h
      | dirs => exact effect_future (effect_lock s.world .dirs) h
      | locked =>
        have : (stepAdd root cs .locked s.world).1 = s.world := by
          dsimp only [stepAdd]
          split <;> rfl
        rw [this]
        exact h
      | writing k rest =>
        cases rest with
        | nil => exact h
        | cons t rest =>
          have hk : k ≤ s.world.gen := hpi.1.1
          dsimp only [stepAdd, World.append]
          split
          · exact h
          · intro l hl
            dsimp only at hl ⊢
            rw [if_neg (by omega)]
            exact h l hl
      | unlocking ok => exact effect_future (effect_unlock s.world ok _) h
      | _ => exact h

theorem future_run (ho : NoRewrite jobs) {c : Text} {p : Piece.Past} (schedule : List Nat) :
    ∀ {W : Piece.Log} {s : Sys}, Piece.Inv nd root jobs c p W s → (∀ k, s.world.gen < k → s.world.orphan k = []) →
      ∃ W', Piece.Inv nd root jobs c p W' (schedule.foldl (step nd order root jobs) s) ∧
        ∀ k, (schedule.foldl (step nd order root jobs) s).world.gen < k → (schedule.foldl (step nd order root jobs) s).world.orphan k = [] := by
  induction schedule with
  | nil => exact fun h h' => ⟨_, h, h'⟩
  | cons i l ih =>
    intro W s h h'
    obtain ⟨W', h1, _⟩ := h.step (order := order) ho i
    exact ih h1 (future_step ho h h' i)

/-- Size of the batch of process `i`. -/
def batchSize (jobs : List Job) (i : Nat) : Nat :=
  match jobs[i]? with
  | some (.add cs) => (Gcmd.commandsText cs).length
  | _ => 0

theorem batchSizes_eq (jobs : List Job) : batchSizes jobs = ∑ i ∈ Finset.range jobs.length, batchSize jobs i := by
  induction jobs with
  | nil => rfl
  | cons job jobs ih =>
    have e : ∀ i, batchSize (job :: jobs) (i + 1) = batchSize jobs i := fun i => rfl
    rw [List.length_cons, Finset.sum_range_succ']
    simp only [e]
    rw [← ih]
    unfold batchSizes batchSize
    cases job <;> simp [Nat.add_comm]

theorem contributions (n : Nat) (l : List (Nat × Text)) (h : ∀ p ∈ l, p.1 < n) :
    ((l.map Prod.snd).flatten).length = ∑ i ∈ Finset.range n, (contribution i l).length := by
  induction l with
  | nil => simp [contribution]
  | cons p l ih =>
    have e : ∀ i, (contribution i (p :: l)).length = (if p.1 = i then p.2.length else 0) + (contribution i l).length := by
      intro i
      unfold contribution
      rw [List.filter_cons]
      by_cases hi : p.1 = i <;> simp [hi]
    simp only [e, Finset.sum_add_distrib]
    rw [Finset.sum_ite_eq, if_pos (Finset.mem_range.2 (h p (by simp))), ← ih fun q hq => h q (by simp [hq])]
    simp

/-- The processes write what is in their batches, and nothing else. -/
theorem sizes_within (ho : NoRewrite jobs) {fs : FS} {c : Text} (hc : Content root fs c) (schedule : List Nat) :
    SizesWithin nd order root jobs schedule fs (c.length + batchSizes jobs) := by
  intro p _ k t ht
  obtain ⟨W, hI, hf⟩ := future_run (nd := nd) (order := order) ho p (Piece.inv_init (nd := nd) (jobs := jobs) hc) (fun _ _ => rfl)
  change Piece.Inv nd root jobs c _ W (run nd order root jobs p fs) at hI
  change ∀ k, (run nd order root jobs p fs).world.gen < k → (run nd order root jobs p fs).world.orphan k = [] at hf
  have hlen : ∀ k, (fileText c k (W k)).length ≤ c.length + batchSizes jobs := by
    intro k
    have h1 : ((W k).map Prod.snd).flatten.length ≤ batchSizes jobs := by
      rw [batchSizes_eq, contributions jobs.length]
      · refine Finset.sum_le_sum fun i _ => ?_
        unfold batchSize
        split
        · rename_i cs hj
          exact (hI.log.batch i cs k hj).length_le
        · rename_i hj
          rw [Piece.contribution_none]
          · simp
          · intro q hq e
            obtain ⟨cs, hcs⟩ := hI.log.adds k q hq
            exact hj cs (e ▸ hcs)
      · intro q hq
        obtain ⟨cs, hcs⟩ := hI.log.adds k q hq
        exact (List.getElem?_eq_some_iff.1 hcs).1
    unfold fileText
    rw [List.length_append]
    split
    · omega
    · simp only [List.length_nil]; omega
  unfold World.content at ht
  by_cases hk : k = (run nd order root jobs p fs).world.gen
  · rw [if_pos hk] at ht
    rcases hI.world.slot with ⟨e, _⟩ | e
    · change (run nd order root jobs p fs).world.fs (commandPath root) = _ at e
      rw [e] at ht
      cases ht
    · change (run nd order root jobs p fs).world.fs (commandPath root) = _ at e
      rw [e] at ht
      cases ht
      exact hlen _
  · rw [if_neg hk] at ht
    cases ht
    by_cases hlt : k < (run nd order root jobs p fs).world.gen
    · rw [hI.world.orphan k hlt]
      exact hlen _
    · rw [hf k (by omega)]
      simp

end Unlink
end GC
