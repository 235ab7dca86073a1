/-
Proofs about the model of processes that may remove the command file.
-/
import Verif.Spec.Unlink
import Verif.Proofs.Concurrent
import Verif.Proofs.Killed
import Verif.Props.Format
import Verif.Model.Random
namespace GC
namespace Unlink
open Store Text Format Concurrent

variable {nd : Char → Bool} {order : Nat → DirectedGraph → DirectedGraph} {root : FPath} {jobs : List Job}

/-! ### Lives of the command file -/

/-- Content of life number `k` of the command file when the processes `l` wrote to it. -/
def lifeText (jobs : List Job) (c : Text) (k : Nat) (l : List Nat) : Text :=
  (if k = 0 then c else []) ++ l.flatMap fun i => Gcmd.commandsText (batchOf jobs i)

theorem lifeText_append (c : Text) (k : Nat) (l l' : List Nat) :
    lifeText jobs c k (l ++ l') = lifeText jobs c k l ++ l'.flatMap fun i => Gcmd.commandsText (batchOf jobs i) := by
  unfold lifeText
  rw [List.flatMap_append, List.append_assoc]

theorem lifeText_prefix {c : Text} {k : Nat} {l l' : List Nat} (h : l <+: l') : lifeText jobs c k l <+: lifeText jobs c k l' := by
  obtain ⟨t, rfl⟩ := h
  rw [lifeText_append]
  exact List.prefix_append _ _

theorem flatMap_commandsText (l : List Nat) :
    (l.flatMap fun i => Gcmd.commandsText (batchOf jobs i)) = Gcmd.commandsText (l.flatMap (batchOf jobs)) := by
  unfold Gcmd.commandsText
  rw [List.flatMap_assoc]

theorem lifeText_terminated {c : Text} (ht : NewlineTerminated c) (k : Nat) (l : List Nat) : NewlineTerminated (lifeText jobs c k l) := by
  unfold lifeText
  rw [flatMap_commandsText]
  refine newlineTerminated_append ?_ (terminated_commandsText _)
  split
  · exact ht
  · exact .inl rfl

theorem lifeText_load {c : Text} {g : DirectedGraph} (ht : NewlineTerminated c) (hg : Gcmd.read nd c = .done (.ok g)) (k : Nat) (l : List Nat) :
    loadLines nd (lines (lifeText jobs c k l)) =
      .done (.ok (GraphCommand.applyCommands (l.flatMap (batchOf jobs)) (if k = 0 then g else .new))) := by
  have hx : Content [] (FS.set (fun _ => none) (commandPath []) (some (.file (lifeText jobs c k l)))) (lifeText jobs c k l) :=
    FS.set_self _ _ _
  rw [← loadGraph_lines hx]
  refine (loadGraph_content hx).2 ?_
  unfold lifeText
  rw [flatMap_commandsText]
  have h0 : Gcmd.read nd [] = .done (.ok .new) := rfl
  by_cases hk : k = 0
  · rw [if_pos hk, if_pos hk]
    exact C14_append_applies nd c g _ ht hg
  · rw [if_neg hk, if_neg hk]
    exact C14_append_applies nd [] .new _ (.inl rfl) h0

/-! ### Invariant -/

/-- A moment in the past: the processes that had not opened the command file, the number of the life, a bound for the lives that were
already open, and the processes that had written. -/
structure Past where
  late : Nat → Prop
  gen : Nat
  bound : Nat
  log : Nat → List Nat

/-- Life `h` was opened by process `i`. -/
def Opened (p : Past) (gen : Nat) (slot : Option Node) (i h : Nat) : Prop :=
  h ≤ gen ∧ (h = gen → slot ≠ none) ∧ (p.late i → p.gen ≤ h) ∧ (¬ p.late i → h < p.bound)

/-- What is known about a process. -/
def ProcOk (nd : Char → Bool) (jobs : List Job) (c : Text) (p : Past) (L : Nat → List Nat) (gen : Nat) (slot : Option Node) (i : Nat) :
    Job → Pc → Prop
  | .add _, .start => p.late i ∧ ∀ k, i ∉ L k
  | .add _, .dirs => p.late i ∧ ∀ k, i ∉ L k
  | .add _, .locked => p.late i ∧ ∀ k, i ∉ L k
  | .add cs, .writing h rest => Opened p gen slot i h ∧ ((rest = addWrites cs ∧ ∀ k, i ∉ L k) ∨ (rest = [] ∧ (cs ≠ [] → i ∈ L h)))
  | .add cs, .unlocking true => cs ≠ [] → ∃ k, i ∈ L k
  | .add cs, .finished true => cs ≠ [] → ∃ k, i ∈ L k
  | .query, .start => p.late i
  | .query, .reading h r => Opened p gen slot i h ∧ ReadsPrefix r (lifeText jobs c h (L h))
  | .query, .answered res => res = .done (.error (.io .notFound)) ∨
      ∃ h pre, Opened p gen slot i h ∧ pre <+: L h ∧ (p.late i → p.log h <+: pre) ∧ res = loadLines nd (lines (lifeText jobs c h pre))
  | _, _ => True

theorem Opened.mono {p : Past} {gen gen' : Nat} {slot slot' : Option Node} {i h : Nat} (o : Opened p gen slot i h) (hg : gen ≤ gen')
    (hs : gen = gen' → slot ≠ none → slot' ≠ none) : Opened p gen' slot' i h := by
  obtain ⟨h1, h2, h3⟩ := o
  exact ⟨by omega, fun e => hs (by omega) (h2 (by omega)), h3⟩

theorem ProcOk.mono {c : Text} {p : Past} {L L' : Nat → List Nat} {gen gen' : Nat} {slot slot' : Option Node} {i : Nat}
    {job : Job} {pc : Pc} (h : ProcOk nd jobs c p L gen slot i job pc) (hg : gen ≤ gen') (hs : gen = gen' → slot ≠ none → slot' ≠ none)
    (hL : ∀ k, L k <+: L' k) (hi : ∀ k, i ∈ L' k → i ∈ L k) : ProcOk nd jobs c p L' gen' slot' i job pc := by
  unfold ProcOk at h ⊢
  split at h
  · exact ⟨h.1, fun k hk => h.2 k (hi k hk)⟩
  · exact ⟨h.1, fun k hk => h.2 k (hi k hk)⟩
  · exact ⟨h.1, fun k hk => h.2 k (hi k hk)⟩
  · refine ⟨h.1.mono hg hs, ?_⟩
    rcases h.2 with ⟨e, h4⟩ | ⟨e, h4⟩
    · exact .inl ⟨e, fun k hk => h4 k (hi k hk)⟩
    · exact .inr ⟨e, fun hc => (hL _).subset (h4 hc)⟩
  · intro hc
    obtain ⟨k, hk⟩ := h hc
    exact ⟨k, (hL k).subset hk⟩
  · intro hc
    obtain ⟨k, hk⟩ := h hc
    exact ⟨k, (hL k).subset hk⟩
  · exact h
  · exact ⟨h.1.mono hg hs, h.2.mono (lifeText_prefix (hL _))⟩
  · rcases h with h | ⟨h, pre, h1, h2, h3, h4⟩
    · exact .inl h
    · exact .inr ⟨h, pre, h1.mono hg hs, h2.trans (hL _), h3, h4⟩
  · trivial

/-- The command file of a world. -/
abbrev World.slot (root : FPath) (w : World) : Option Node := w.fs (commandPath root)

/-- The contents of all lives. -/
structure WorldOk (root : FPath) (jobs : List Job) (c : Text) (L : Nat → List Nat) (w : World) : Prop where
  slot : (w.slot root = none ∧ L w.gen = [] ∧ w.gen ≠ 0) ∨ w.slot root = some (.file (lifeText jobs c w.gen (L w.gen)))
  future : ∀ k, w.gen < k → L k = []
  orphan : ∀ k, k < w.gen → w.orphan k = lifeText jobs c k (L k)

/-- The processes that wrote. -/
structure LogOk (jobs : List Job) (p : Past) (L : Nat → List Nat) : Prop where
  nodup : ∀ k, (L k).Nodup
  unique : ∀ i k l, i ∈ L k → i ∈ L l → k = l
  adds : ∀ i k, i ∈ L k → ∃ cs, cs ≠ [] ∧ jobs[i]? = some (.add cs)
  past : ∀ k, p.log k <+: L k
  late : ∀ i k, i ∈ L k → p.late i → p.gen ≤ k ∧ i ∉ p.log k
  early : ∀ i k, i ∈ L k → ¬ p.late i → k < p.bound

structure Inv (nd : Char → Bool) (root : FPath) (jobs : List Job) (c : Text) (p : Past) (L : Nat → List Nat) (s : Sys) : Prop where
  world : WorldOk root jobs c L s.world
  log : LogOk jobs p L
  gen : p.gen ≤ s.world.gen
  proc : ∀ i job, jobs[i]? = some job → ProcOk nd jobs c p L s.world.gen (s.world.slot root) i job (s.pc i)

/-- What a step does to the command file, apart from writing. -/
inductive Effect (root : FPath) (w w' : World) : Prop where
  | same : w'.slot root = w.slot root → w'.gen = w.gen → w'.orphan = w.orphan → Effect root w w'
  | create : w.slot root = none → w'.slot root = some (.file []) → w'.gen = w.gen → w'.orphan = w.orphan → Effect root w w'
  | remove (c : Text) : w.slot root = some (.file c) → w'.slot root = none → w'.gen = w.gen + 1 →
      w'.orphan = (fun k => if k = w.gen then c else w.orphan k) → Effect root w w'

theorem Effect.mono {w w' : World} (e : Effect root w w') : w.gen ≤ w'.gen ∧ (w.gen = w'.gen → w.slot root ≠ none → w'.slot root ≠ none) := by
  cases e with
  | same h1 h2 h3 => exact ⟨by omega, fun _ h => by rw [h1]; exact h⟩
  | create h1 h2 h3 h4 => exact ⟨by omega, fun _ h => by rw [h2]; simp⟩
  | remove c h1 h2 h3 h4 => exact ⟨by omega, fun h => by omega⟩

theorem Effect.world {w w' : World} {c : Text} {L : Nat → List Nat} (e : Effect root w w') (h : WorldOk root jobs c L w) :
    WorldOk root jobs c L w' := by
  cases e with
  | same h1 h2 h3 =>
    exact ⟨by rw [h1, h2]; exact h.slot, by rw [h2]; exact h.future, by rw [h2, h3]; exact h.orphan⟩
  | create h1 h2 h3 h4 =>
    refine ⟨.inr ?_, by rw [h3]; exact h.future, by rw [h3, h4]; exact h.orphan⟩
    rcases h.slot with ⟨_, e, e'⟩ | e
    · rw [h2, h3, e]
      simp [lifeText, e']
    · rw [h1] at e; cases e
  | remove d h1 h2 h3 h4 =>
    have hd : d = lifeText jobs c w.gen (L w.gen) := by
      rcases h.slot with ⟨e, _⟩ | e
      · rw [h1] at e; cases e
      · rw [h1] at e; cases e; rfl
    refine ⟨.inl ⟨h2, ?_, by omega⟩, fun k hk => h.future k (by omega), ?_⟩
    · rw [h3]; exact h.future _ (by omega)
    · intro k hk
      rw [h4]
      dsimp only
      by_cases e : k = w.gen
      · rw [if_pos e, e]; exact hd
      · rw [if_neg e]; exact h.orphan k (by omega)

/-- A step that does not write. -/
theorem Inv.effect {c : Text} {p : Past} {L : Nat → List Nat} {s : Sys} (h : Inv nd root jobs c p L s) {i : Nat} {job : Job}
    (hj : jobs[i]? = some job) {w' : World} {pc' : Pc} (e : Effect root s.world w')
    (hp : ProcOk nd jobs c p L w'.gen (w'.slot root) i job (s.pc i) → ProcOk nd jobs c p L w'.gen (w'.slot root) i job pc') :
    Inv nd root jobs c p L ⟨w', fun j => if j = i then pc' else s.pc j⟩ := by
  refine ⟨e.world h.world, h.log, le_trans h.gen e.mono.1, ?_⟩
  intro j job' hj'
  have hm : ProcOk nd jobs c p L w'.gen (w'.slot root) j job' (s.pc j) :=
    (h.proc j job' hj').mono e.mono.1 e.mono.2 (fun _ => List.prefix_rfl) (fun _ => id)
  dsimp only
  by_cases e' : j = i
  · subst e'
    rw [if_pos rfl]
    rw [hj] at hj'
    cases hj'
    exact hp hm
  · rw [if_neg e']
    exact hm

theorem Effect.refl (w : World) : Effect root w w := .same rfl rfl rfl

theorem effect_fs {w : World} {fs : FS} (h : fs (commandPath root) = w.fs (commandPath root)) : Effect root w { w with fs := fs } := .same h rfl rfl

theorem effect_lock (w : World) (pc : Pc) : Effect root w (stepLock root pc w).1 := by
  unfold stepLock
  split
  · exact effect_fs (createDirAll_command _ (List.prefix_append _ _))
  · have := (openCreate_other (lockPath root) w.fs).1 _ (lock_ne_command root)
    generalize openCreate (lockPath root) w.fs = r at this ⊢
    obtain ⟨fs, r⟩ := r
    cases r <;> exact effect_fs this
  · exact .refl _

theorem effect_unlock (w : World) (ok : Bool) (next : Pc) : Effect root w (stepUnlock root ok next w).1 := by
  unfold stepUnlock
  have := unlock_command (root := root) w.fs
  generalize unlock root w.fs = r at this ⊢
  obtain ⟨fs, r⟩ := r
  cases r <;> exact effect_fs this

theorem effect_initFile (w : World) (next : Pc) : Effect root w (initFile root next w).1 := by
  unfold initFile openCreate
  split
  rename_i fs h
  · split at h
    · cases h; exact .refl _
    · cases h
    · rename_i hn
      split at h
      · cases h
        exact .create hn (FS.set_self _ _ _) rfl rfl
      · cases h
      · cases h
  · rename_i fs e h
    split at h
    · cases h
    · cases h; exact .refl _
    · split at h
      · cases h
      · cases h; exact .refl _
      · cases h; exact .refl _

theorem effect_init (w : World) (pc : Pc) : Effect root w (stepInit root pc w).1 := by
  unfold stepInit
  split
  · exact effect_fs (createDirAll_command _ List.prefix_rfl)
  · exact effect_initFile w _
  · exact .refl _

theorem effect_remove (w : World) (hw : w.slot root ≠ some .dir) (pc : Pc) : Effect root w (stepRemove root pc w).1 := by
  unfold stepRemove
  split
  · split <;> exact .refl _
  · unfold World.unlink
    generalize hs : w.fs (commandPath root) = n
    rcases n with _ | (_ | c)
    · exact .refl _
    · exact absurd hs hw
    · exact .remove c hs (FS.set_self _ _ _) rfl rfl
  · refine effect_fs (if_neg ?_)
    simp
  · split
    · refine effect_fs (FS.set_other _ _ (command_not_prefix root List.prefix_rfl).symm)
    · exact .refl _
  · exact .refl _

theorem effect_clean (w : World) (hw : w.slot root ≠ some .dir) (pc : Pc) : Effect root w (stepClean root pc w).1 := by
  unfold stepClean
  split
  · exact effect_lock w _
  · exact effect_lock w _
  · exact effect_unlock w _ _
  · exact effect_remove w hw _

theorem WorldOk.not_dir {c : Text} {L : Nat → List Nat} {w : World} (h : WorldOk root jobs c L w) : w.slot root ≠ some .dir := by
  rcases h.slot with ⟨e, _⟩ | e <;> rw [e] <;> simp

theorem WorldOk.content {c : Text} {L : Nat → List Nat} {w : World} (h : WorldOk root jobs c L w) {k : Nat} (hk : k ≤ w.gen)
    (hs : k = w.gen → w.slot root ≠ none) : w.content root k = some (lifeText jobs c k (L k)) := by
  unfold World.content
  by_cases e : k = w.gen
  · rw [if_pos e]
    rcases h.slot with ⟨e', _⟩ | e'
    · exact absurd e' (hs e)
    · change w.fs (commandPath root) = _ at e'
      rw [e', e]
  · rw [if_neg e, h.orphan k (by omega)]

/-- One `write` of a process. -/
theorem WorldOk.append {c : Text} {L : Nat → List Nat} {w : World} (h : WorldOk root jobs c L w) {i k : Nat} (hk : k ≤ w.gen)
    (hs : k = w.gen → w.slot root ≠ none) :
    WorldOk root jobs c (fun l => if l = k then L k ++ [i] else L l) (w.append root k (Gcmd.commandsText (batchOf jobs i))) := by
  have ht : lifeText jobs c k (L k ++ [i]) = lifeText jobs c k (L k) ++ Gcmd.commandsText (batchOf jobs i) := by
    rw [lifeText_append]; simp
  unfold World.append
  by_cases e : k = w.gen
  · rw [if_pos e]
    subst e
    rcases h.slot with ⟨e', _⟩ | e'
    · exact absurd e' (hs rfl)
    · refine ⟨.inr ?_, ?_, ?_⟩
      · change w.fs (commandPath root) = _ at e'
        unfold appendText World.slot
        rw [e']
        dsimp only
        rw [FS.set_self, if_pos rfl, ht]
      · intro l hl
        dsimp only at hl ⊢
        rw [if_neg (by omega)]
        exact h.future l hl
      · intro l hl
        dsimp only at hl ⊢
        rw [if_neg (by omega)]
        exact h.orphan l hl
  · rw [if_neg e]
    have e2 : ¬ w.gen = k := fun h => e h.symm
    refine ⟨?_, ?_, ?_⟩
    · dsimp only
      rw [if_neg e2]
      exact h.slot
    · intro l hl
      dsimp only at hl ⊢
      rw [if_neg (by omega)]
      exact h.future l hl
    · intro l hl
      dsimp only at hl ⊢
      by_cases e' : l = k
      · rw [if_pos e', if_pos e', e', h.orphan k (by omega), ht]
      · rw [if_neg e', if_neg e']
        exact h.orphan l hl

theorem World.append_gen (w : World) (k : Nat) (t : Text) : (w.append root k t).gen = w.gen := by
  unfold World.append; split <;> rfl

theorem World.append_slot (w : World) (k : Nat) (t : Text) (h : w.slot root ≠ none) : (w.append root k t).slot root ≠ none := by
  unfold World.append
  split
  · unfold appendText World.slot
    dsimp only
    generalize hs : w.fs (commandPath root) = n
    rcases n with _ | (_ | d)
    · exact h
    · exact h
    · change (w.fs.set _ _) (commandPath root) ≠ none
      rw [FS.set_self]; simp
  · exact h

/-- The writing step. -/
theorem Inv.write {c : Text} {p : Past} {L : Nat → List Nat} {s : Sys} (h : Inv nd root jobs c p L s) {i : Nat} {cs : List GraphCommand}
    (hj : jobs[i]? = some (.add cs)) (hcs : cs ≠ []) {k : Nat} (ho : Opened p s.world.gen (s.world.slot root) i k) (hn : ∀ l, i ∉ L l) :
    Inv nd root jobs c p (fun l => if l = k then L k ++ [i] else L l)
      ⟨s.world.append root k (Gcmd.commandsText cs), fun j => if j = i then .writing k [] else s.pc j⟩ := by
  have hb : batchOf jobs i = cs := by unfold batchOf; rw [hj]
  have hw := h.world.append (i := i) ho.1 ho.2.1
  rw [hb] at hw
  have hL : ∀ l, L l <+: (if l = k then L k ++ [i] else L l) := by
    intro l
    split
    · rename_i e; rw [e]; exact List.prefix_append _ _
    · exact List.prefix_rfl
  have hmem : ∀ j l, j ∈ (if l = k then L k ++ [i] else L l) → j ∈ L l ∨ (j = i ∧ l = k) := by
    intro j l hm
    split at hm
    · rename_i e
      rcases List.mem_append.1 hm with hm | hm
      · rw [e]; exact .inl hm
      · exact .inr ⟨List.mem_singleton.1 hm, e⟩
    · exact .inl hm
  have hmono : ∀ j, j ≠ i → ∀ l, j ∈ (if l = k then L k ++ [i] else L l) → j ∈ L l := by
    intro j hji l hm
    rcases hmem j l hm with hm | hm
    · exact hm
    · exact absurd hm.1 hji
  refine ⟨hw, ⟨?_, ?_, ?_, ?_, ?_, ?_⟩, ?_, ?_⟩
  · intro l
    split
    · exact List.nodup_append.2 ⟨h.log.nodup k, List.nodup_singleton _, by
        intro a ha b hb e
        rw [List.mem_singleton.1 hb] at e
        exact hn k (e ▸ ha)⟩
    · exact h.log.nodup l
  · intro j l l' h1 h2
    rcases hmem j l h1 with h1 | h1 <;> rcases hmem j l' h2 with h2 | h2
    · exact h.log.unique j l l' h1 h2
    · exact absurd (h2.1 ▸ h1) (hn l)
    · exact absurd (h1.1 ▸ h2) (hn l')
    · exact h1.2.trans h2.2.symm
  · intro j l h1
    rcases hmem j l h1 with h1 | h1
    · exact h.log.adds j l h1
    · rw [h1.1]; exact ⟨cs, hcs, hj⟩
  · exact fun l => (h.log.past l).trans (hL l)
  · intro j l h1 hp
    rcases hmem j l h1 with h1 | h1
    · exact h.log.late j l h1 hp
    · rw [h1.1] at hp ⊢
      rw [h1.2]
      exact ⟨ho.2.2.1 hp, fun hm => hn k ((h.log.past k).subset hm)⟩
  · intro j l h1 hp
    rcases hmem j l h1 with h1 | h1
    · exact h.log.early j l h1 hp
    · rw [h1.1] at hp
      rw [h1.2]
      exact ho.2.2.2 hp
  · exact le_of_le_of_eq h.gen (World.append_gen _ _ _).symm
  · have hg : s.world.gen ≤ (s.world.append root k (Gcmd.commandsText cs)).gen := (World.append_gen _ _ _).symm.le
    intro j job' hj'
    dsimp only
    by_cases e : j = i
    · subst e
      rw [if_pos rfl]
      rw [hj] at hj'
      cases hj'
      exact ⟨ho.mono hg fun _ => World.append_slot _ _ _, .inr ⟨rfl, fun _ => by simp⟩⟩
    · rw [if_neg e]
      exact (h.proc j job' hj').mono hg (fun _ => World.append_slot _ _ _) hL (hmono j e)

/-- Jobs without gc-build and gc-random. -/
theorem Inv.step {c : Text} (ht : NewlineTerminated c) (ho : Ordinary jobs) {p : Past} {L : Nat → List Nat} {s : Sys}
    (h : Inv nd root jobs c p L s) (i : Nat) :
    ∃ L', Inv nd root jobs c p L' (Unlink.step nd order root jobs s i) ∧ ∀ k, L k <+: L' k := by
  unfold Unlink.step
  cases hj : jobs[i]? with
  | none => exact ⟨L, h, fun _ => List.prefix_rfl⟩
  | some job =>
    dsimp only
    have hpi := h.proc i job hj
    cases job with
    | build => exact absurd hj (ho.1 i)
    | random g => exact absurd hj (ho.2.1 i g)
    | init =>
      refine ⟨L, h.effect hj (effect_init s.world (s.pc i)) fun _ => ?_, fun _ => List.prefix_rfl⟩
      simp only [ProcOk]
    | clean =>
      refine ⟨L, h.effect hj (effect_clean s.world h.world.not_dir (s.pc i)) fun _ => ?_, fun _ => List.prefix_rfl⟩
      simp only [ProcOk]
    | query =>
      refine ⟨L, ?_, fun _ => List.prefix_rfl⟩
      dsimp only [stepJob, stepQuery]
      generalize hpc : s.pc i = pc at hpi
      cases pc with
      | start =>
        dsimp only [stepOpen, Concurrent.stepOpen]
        rcases h.world.slot with ⟨e, e'⟩ | e
        · change s.world.fs (commandPath root) = _ at e
          rw [e]
          exact h.effect hj (.refl _) fun _ => .inl rfl
        · have e0 := e
          change s.world.fs (commandPath root) = _ at e
          rw [e]
          refine h.effect hj (.refl _) fun _ => ⟨⟨le_rfl, fun _ => by rw [e0]; simp, fun _ => h.gen, fun hn => absurd hpi hn⟩, ReadsPrefix.new _⟩
      | reading k r =>
        obtain ⟨ho', hr⟩ := hpi
        have hc := h.world.content ho'.1 ho'.2.1
        dsimp only [stepRead]
        rw [hc]
        dsimp only
        by_cases hn : readChunk (lifeText jobs c k (L k)) r.offset = []
        · rw [if_neg (by simpa using hn)]
          have e := readChunk_nil hr hn
          rw [if_pos (show r.current = [] ∨ r.current.getLast? = some '\n' by rw [e]; exact lifeText_terminated ht k (L k))]
          refine h.effect hj (.refl _) fun _ => .inr ⟨k, L k, ho', List.prefix_rfl, fun _ => h.log.past k, ?_⟩
          unfold Reader.lines
          rw [hr.1, e]
          rfl
        · rw [if_pos hn]
          refine h.effect hj (.refl _) fun _ => ⟨ho', hr.1, ?_, readChunk_prefix hr⟩
          simp only [List.length_append, hr.2.1]
      | _ => exact h.effect hj (.refl _) fun h => by rw [hpc] at h; exact h
    | add cs =>
      dsimp only [stepJob]
      generalize hpc : s.pc i = pc at hpi
      have hsmall := ho.2.2 i cs hj
      cases pc with
      | start =>
        refine ⟨L, h.effect hj (effect_lock s.world .start) fun _ => hpi, fun _ => List.prefix_rfl⟩
      | dirs =>
        refine ⟨L, h.effect hj (effect_lock s.world .dirs) fun _ => ?_, fun _ => List.prefix_rfl⟩
        dsimp only [stepAdd, stepLock]
        generalize openCreate (lockPath root) s.world.fs = r
        obtain ⟨fs, r⟩ := r
        cases r with
        | error e => trivial
        | ok u => exact hpi
      | locked =>
        refine ⟨L, ?_, fun _ => List.prefix_rfl⟩
        dsimp only [stepAdd, openAppend]
        rcases h.world.slot with ⟨e, e'⟩ | e
        · change s.world.fs (commandPath root) = _ at e
          rw [e]
          exact h.effect hj (.refl _) fun _ => trivial
        · have e0 := e
          change s.world.fs (commandPath root) = _ at e
          rw [e]
          exact h.effect hj (.refl _) fun _ => ⟨⟨le_rfl, fun _ => by rw [e0]; simp, fun _ => h.gen, fun hn => absurd hpi.1 hn⟩, .inl ⟨rfl, hpi.2⟩⟩
      | writing k rest =>
        obtain ⟨ho', hr⟩ := hpi
        rw [addWrites_small hsmall] at hr
        cases rest with
        | nil =>
          refine ⟨L, h.effect hj (.refl _) fun _ => ?_, fun _ => List.prefix_rfl⟩
          dsimp only [stepAdd]
          intro hcs
          rcases hr with ⟨e, _⟩ | ⟨_, hr⟩
          · rw [if_neg hcs] at e; cases e
          · exact ⟨k, hr hcs⟩
        | cons t rest =>
          rcases hr with ⟨e, hr⟩ | ⟨e, _⟩
          · by_cases hcs : cs = []
            · rw [if_pos hcs] at e; cases e
            · rw [if_neg hcs] at e
              cases e
              refine ⟨_, h.write hj hcs ho' hr, ?_⟩
              intro l
              split
              · rename_i e; rw [e]; exact List.prefix_append _ _
              · exact List.prefix_rfl
          · cases e
      | unlocking ok =>
        refine ⟨L, h.effect hj (effect_unlock s.world ok _) fun _ => ?_, fun _ => List.prefix_rfl⟩
        dsimp only [stepAdd, stepUnlock]
        generalize unlock root s.world.fs = r
        obtain ⟨fs, r⟩ := r
        cases r with
        | error e => trivial
        | ok u =>
          cases ok with
          | false => trivial
          | true => exact hpi
      | _ => exact ⟨L, h.effect hj (.refl _) fun h => by rw [hpc] at h; exact h, fun _ => List.prefix_rfl⟩

theorem Inv.run {c : Text} (ht : NewlineTerminated c) (ho : Ordinary jobs) {p : Past} (schedule : List Nat) :
    ∀ {L : Nat → List Nat} {s : Sys}, Inv nd root jobs c p L s →
      ∃ L', Inv nd root jobs c p L' (schedule.foldl (Unlink.step nd order root jobs) s) ∧ ∀ k, L k <+: L' k := by
  induction schedule with
  | nil => exact fun h => ⟨_, h, fun _ => List.prefix_rfl⟩
  | cons i l ih =>
    intro L s h
    obtain ⟨L1, h1, e1⟩ := h.step (order := order) ht ho i
    obtain ⟨L2, h2, e2⟩ := ih h1
    exact ⟨L2, h2, fun k => (e1 k).trans (e2 k)⟩

/-- The beginning. -/
theorem inv_init {c : Text} {fs : FS} (hc : Content root fs c) :
    Inv nd root jobs c ⟨fun _ => True, 0, 0, fun _ => []⟩ (fun _ => []) ⟨⟨fs, 0, fun _ => []⟩, fun _ => .start⟩ := by
  refine ⟨⟨.inr ?_, fun _ _ => rfl, fun k hk => absurd hk (Nat.not_lt_zero k)⟩, ⟨?_, ?_, ?_, ?_, ?_, ?_⟩, le_rfl, ?_⟩
  · unfold Content at hc
    simpa [lifeText, World.slot] using hc
  · exact fun _ => List.nodup_nil
  · intro i k l h; cases h
  · intro i k h; cases h
  · exact fun _ => List.prefix_rfl
  · intro i k h; cases h
  · intro i k h; cases h
  · intro i job _
    cases job <;> simp [ProcOk]

/-- Another moment to look back at. -/
theorem Inv.rebase {c : Text} {p : Past} {L : Nat → List Nat} {s : Sys} (h : Inv nd root jobs c p L s) {b : Nat}
    (hb : s.world.gen ≤ b) (hb' : s.world.slot root ≠ none → s.world.gen < b) :
    Inv nd root jobs c ⟨fun i => NotOpened (s.pc i), s.world.gen, b, L⟩ L s := by
  have ho : ∀ {q : Past} {i k : Nat}, Opened q s.world.gen (s.world.slot root) i k → ¬ NotOpened (s.pc i) →
      Opened ⟨fun i => NotOpened (s.pc i), s.world.gen, b, L⟩ s.world.gen (s.world.slot root) i k := by
    intro q i k o hn
    refine ⟨o.1, o.2.1, fun h => absurd h hn, fun _ => ?_⟩
    rcases Nat.lt_or_ge k s.world.gen with hk | hk
    · exact lt_of_lt_of_le hk hb
    · have : k = s.world.gen := le_antisymm o.1 hk
      rw [this]
      exact hb' (o.2.1 this)
  refine ⟨h.world, ⟨h.log.nodup, h.log.unique, h.log.adds, fun _ => List.prefix_rfl, ?_, ?_⟩, le_rfl, ?_⟩
  · intro i k hi hl
    obtain ⟨cs, _, hj⟩ := h.log.adds i k hi
    have := h.proc i _ hj
    dsimp only at hl
    rcases hl with e | e | e <;> rw [e] at this <;> exact absurd hi (this.2 k)
  · intro i k hi _
    dsimp only
    have hne : L k ≠ [] := List.ne_nil_of_mem hi
    rcases Nat.lt_trichotomy k s.world.gen with hk | hk | hk
    · exact lt_of_lt_of_le hk hb
    · rw [hk] at hne ⊢
      refine hb' ?_
      rcases h.world.slot with ⟨_, e, _⟩ | e
      · exact absurd e hne
      · rw [e]; simp
    · exact absurd (h.world.future k hk) hne
  · intro i job hj
    have hp := h.proc i job hj
    generalize hpc : s.pc i = pc at hp
    have hno : ∀ {P : Prop}, pc ≠ .start → pc ≠ .dirs → pc ≠ .locked → ¬ NotOpened (s.pc i) := by
      intro _ h1 h2 h3 hn
      rw [hpc] at hn
      rcases hn with e | e | e
      · exact h1 e
      · exact h2 e
      · exact h3 e
    unfold ProcOk at hp ⊢
    split at hp
    · exact ⟨.inl hpc, hp.2⟩
    · exact ⟨.inr (.inl hpc), hp.2⟩
    · exact ⟨.inr (.inr hpc), hp.2⟩
    · exact ⟨ho hp.1 (hno (P := True) (by simp) (by simp) (by simp)), hp.2⟩
    · exact hp
    · exact hp
    · exact .inl hpc
    · exact ⟨ho hp.1 (hno (P := True) (by simp) (by simp) (by simp)), hp.2⟩
    · have hn := hno (P := True) (by simp) (by simp) (by simp)
      rcases hp with hp | ⟨k, pre, h1, h2, _, h4⟩
      · exact .inl hp
      · exact .inr ⟨k, pre, ho h1 hn, h2, fun h => absurd h hn, h4⟩
    · trivial

/-- Only gc-clean and gc-random remove the command file. -/
theorem gen_run (schedule : List Nat) (hn : ∀ j ∈ schedule, jobs[j]? ≠ some .clean) (hb : ∀ j : Nat, jobs[j]? ≠ some .build)
    (hr : ∀ (j : Nat) (g : DirectedGraph), jobs[j]? ≠ some (.random g)) :
    ∀ s : Sys, (schedule.foldl (Unlink.step nd order root jobs) s).world.gen = s.world.gen := by
  induction schedule with
  | nil => exact fun _ => rfl
  | cons i l ih =>
    intro s
    refine (ih (fun j hj => hn j (List.mem_cons_of_mem _ hj)) _).trans ?_
    unfold Unlink.step
    cases hj : jobs[i]? with
    | none => rfl
    | some job =>
      dsimp only
      generalize s.pc i = pc
      have hlock : ∀ pc, (stepLock root pc s.world).1.gen = s.world.gen := by
        intro pc
        unfold stepLock
        split
        · rfl
        · split <;> rfl
        · rfl
      cases job with
      | build => exact absurd hj (hb i)
      | random g => exact absurd hj (hr i g)
      | clean => exact absurd hj (hn i List.mem_cons_self)
      | init =>
        dsimp only [stepJob, stepInit]
        split
        · rfl
        · unfold initFile
          split <;> rfl
        · rfl
      | query =>
        dsimp only [stepJob, stepQuery]
        split
        · split <;> rfl
        · split <;> rfl
        · rfl
      | add cs =>
        dsimp only [stepJob, stepAdd]
        split
        · exact hlock _
        · exact hlock _
        · split <;> rfl
        · rfl
        · exact World.append_gen _ _ _
        · unfold stepUnlock
          split <;> rfl
        · rfl

theorem Inv.explains {c : Text} {g : DirectedGraph} (ht : NewlineTerminated c) (hg : Gcmd.read nd c = .done (.ok g)) {p : Past} {L : Nat → List Nat}
    {s : Sys} (h : Inv nd root jobs c p L s) : Explains nd root jobs g L s := by
  refine ⟨h.log.nodup, h.log.unique, ?_, h.world.future, ?_, ?_, ?_⟩
  · intro i k hi
    obtain ⟨cs, _, hj⟩ := h.log.adds i k hi
    exact ⟨cs, hj⟩
  · refine h.world.slot.imp id fun e => ?_
    rw [loadGraph_lines (show Content root s.world.fs _ from e)]
    exact lifeText_load ht hg _ _
  · intro i res hj hpc
    have := h.proc i _ hj
    rw [hpc] at this
    rcases this with e | ⟨k, pre, ho, hp, _, e⟩
    · exact .inl e
    · exact .inr ⟨k, ho.1, pre, hp, e.trans (lifeText_load ht hg _ _)⟩
  · intro i cs hj hcs hpc
    have := h.proc i _ hj
    rw [hpc] at this
    obtain ⟨k, hk⟩ := this hcs
    refine ⟨k, ?_, hk⟩
    by_contra hlt
    rw [h.world.future k (by omega)] at hk
    cases hk

/-- gc-add, gc-delete and queries do not go back. -/
theorem notOpened_step {s : Sys} {i j : Nat} {job : Job} (hj : jobs[j]? = some job) (hk : (∃ cs, job = .add cs) ∨ job = .query)
    (h : NotOpened ((Unlink.step nd order root jobs s i).pc j)) : NotOpened (s.pc j) := by
  unfold Unlink.step at h
  cases hi : jobs[i]? with
  | none => rw [hi] at h; exact h
  | some job' =>
    rw [hi] at h
    dsimp only at h
    by_cases e : j = i
    · subst e
      rw [hj] at hi
      cases hi
      rw [if_pos rfl] at h
      generalize hpc : s.pc j = pc at h ⊢
      cases pc with
      | start => exact .inl rfl
      | dirs => exact .inr (.inl rfl)
      | locked => exact .inr (.inr rfl)
      | _ =>
        exfalso
        rcases hk with ⟨cs, rfl⟩ | rfl
        · dsimp only [stepJob, stepAdd] at h
          first
          | (rcases h with h | h | h <;> cases h; done)
          | (unfold stepUnlock at h
             generalize unlock root s.world.fs = r at h
             obtain ⟨fs, r⟩ := r
             cases r with
             | error e => rcases h with h | h | h <;> cases h
             | ok u =>
               dsimp only at h
               split at h <;> rcases h with h | h | h <;> cases h)
          | (split at h <;> rcases h with h | h | h <;> rename_i e _ <;> simp_all; done)
          | (rename_i k rest
             cases rest <;> rcases h with h | h | h <;> cases h)
        · dsimp only [stepJob, stepQuery] at h
          first
          | (rcases h with h | h | h <;> cases h; done)
          | (split at h <;> rcases h with h | h | h <;> cases h)
    · rw [if_neg e] at h
      exact h

theorem notOpened_run (schedule : List Nat) {j : Nat} {job : Job} (hj : jobs[j]? = some job) (hk : (∃ cs, job = .add cs) ∨ job = .query) :
    ∀ {s : Sys}, NotOpened ((schedule.foldl (Unlink.step nd order root jobs) s).pc j) → NotOpened (s.pc j) := by
  induction schedule with
  | nil => exact id
  | cons i l ih => exact fun h => notOpened_step hj hk (ih h)

/-- What gc-clean did when it reports success. -/
theorem clean_moment {i : Nat} (hj : jobs[i]? = some .clean) (schedule : List Nat) :
    ∀ {s : Sys}, s.pc i ≠ .unlocking true → s.pc i ≠ .finished true → (schedule.foldl (Unlink.step nd order root jobs) s).pc i = .finished true →
      ∃ a b, schedule = a ++ b ∧ (a.foldl (Unlink.step nd order root jobs) s).world.fs (commandPath root) = none := by
  induction schedule with
  | nil => exact fun _ h2 h3 => absurd h3 h2
  | cons j l ih =>
    intro s h1 h2 h3
    by_cases hs : s.world.fs (commandPath root) = none
    · exact ⟨[], _, rfl, hs⟩
    · have hpc : ∀ ok, ok ≠ false → (Unlink.step nd order root jobs s j).pc i ≠ .unlocking ok ∧
          (Unlink.step nd order root jobs s j).pc i ≠ .finished ok := by
        intro ok hok
        cases ok with
        | false => exact absurd rfl hok
        | true =>
        unfold Unlink.step
        cases hi : jobs[j]? with
        | none => exact ⟨h1, h2⟩
        | some job =>
          dsimp only
          by_cases e : i = j
          · subst e
            rw [hj] at hi
            cases hi
            rw [if_pos rfl]
            dsimp only [stepJob, stepClean]
            generalize s.pc i = pc at h1 h2
            cases pc with
            | start => exact ⟨by simp [stepLock], by simp [stepLock]⟩
            | dirs =>
              dsimp only [stepLock]
              split <;> exact ⟨by simp, by simp⟩
            | unlocking ok =>
              cases ok with
              | true => exact absurd rfl h1
              | false =>
                dsimp only [stepUnlock]
                split <;> exact ⟨by simp, by simp⟩
            | locked =>
              dsimp only [stepRemove]
              split <;> exact ⟨by simp, by simp⟩
            | listed todo =>
              cases todo with
              | false => exact ⟨by simp [stepRemove], by simp [stepRemove]⟩
              | true =>
                dsimp only [stepRemove]
                split <;> exact ⟨by simp, by simp⟩
            | emptied =>
              dsimp only [stepRemove]
              split
              · rename_i h
                exact absurd h hs
              · exact ⟨by simp, by simp⟩
            | finished ok =>
              refine ⟨by simp [stepRemove], ?_⟩
              exact h2
            | _ => exact ⟨by simp [stepRemove], by simp [stepRemove]⟩
          · rw [if_neg e]
            exact ⟨h1, h2⟩
      obtain ⟨a, b, e, h⟩ := ih (hpc true (by simp)).1 (hpc true (by simp)).2 h3
      exact ⟨j :: a, b, by rw [e]; rfl, h⟩

end Unlink
end GC
namespace GC
namespace Unlink
open Store Text Format Concurrent

/-! ### One process alone -/

/-- `n` steps of a process that runs alone. -/
def iter (nd : Char → Bool) (order : DirectedGraph → DirectedGraph) (root : FPath) (job : Job) : Nat → Pc → World → World × Pc
  | 0, pc, w => (w, pc)
  | n + 1, pc, w => iter nd order root job n (stepJob nd order root job pc w).2 (stepJob nd order root job pc w).1

theorem run_one (nd : Char → Bool) (order : Nat → DirectedGraph → DirectedGraph) (root : FPath) (job : Job) (n : Nat) (s : Sys) :
    (((List.replicate n 0).foldl (step nd order root [job]) s).world, ((List.replicate n 0).foldl (step nd order root [job]) s).pc 0) =
      iter nd (order 0) root job n (s.pc 0) s.world := by
  induction n generalizing s with
  | zero => rfl
  | succ n ih =>
    rw [List.replicate_succ, List.foldl_cons, ih]
    rfl

theorem iter_finished (nd : Char → Bool) (order : DirectedGraph → DirectedGraph) (root : FPath) (job : Job) (ok : Bool) (n : Nat) (w : World) :
    iter nd order root job n (.finished ok) w = (w, .finished ok) := by
  induction n with
  | zero => rfl
  | succ n ih =>
    have : stepJob nd order root job (.finished ok) w = (w, .finished ok) := by cases job <;> rfl
    unfold iter
    rw [this]
    exact ih

theorem iter_add (nd : Char → Bool) (order : DirectedGraph → DirectedGraph) (root : FPath) (job : Job) (m n : Nat) (pc : Pc) (w : World) :
    iter nd order root job (m + n) pc w = iter nd order root job n (iter nd order root job m pc w).2 (iter nd order root job m pc w).1 := by
  induction m generalizing pc w with
  | zero => rw [Nat.zero_add]; rfl
  | succ m ih =>
    rw [Nat.succ_add]
    exact ih _ _

/-- Removing the entries of `.graph` one after the other and then `.graph` is removing everything below. -/
theorem removed_all {root : FPath} {fs fs' : FS} (h' : ∀ q, ¬ commandPath root <+: q → fs' q = fs q) (hn : ∀ q, commandPath root <+: q → fs' q = none) :
    (FS.set (fun q => if (rootPath root).isPrefixOf q ∧ q ≠ rootPath root ∧ ¬ (commandPath root).isPrefixOf q then none else fs' q) (rootPath root) none) =
      fun q => if (rootPath root).isPrefixOf q then none else fs q := by
  funext q
  by_cases e : q = rootPath root
  · subst e
    rw [FS.set_self, if_pos (List.isPrefixOf_iff_prefix.2 List.prefix_rfl)]
  · rw [FS.set_other _ _ e]
    by_cases hq : commandPath root <+: q
    · rw [if_neg (by simp [hq]), hn q hq, if_pos (List.isPrefixOf_iff_prefix.2 ((root_prefix_command root).trans hq))]
    · by_cases hr : rootPath root <+: q
      · rw [if_pos (by simp [hq, hr, e]), if_pos (by simp [hr])]
      · rw [if_neg (by simp [hr]), if_neg (by simp [hr]), h' q hq]

/-- Nothing is below a command file. -/
def NothingBelow (root : FPath) (fs : FS) : Prop :=
  ∀ q, commandPath root <+: q → q ≠ commandPath root → fs (commandPath root) ≠ some .dir → fs q = none

theorem nothingBelow_of_wf {root : FPath} {fs : FS} (h : fs.WF) : NothingBelow root fs := by
  rintro q ⟨t, rfl⟩ hne hd
  have hup : ∀ (t : FPath), t ≠ [] → fs (commandPath root ++ t) ≠ none → fs (commandPath root) = some .dir := by
    intro t
    induction t using List.reverseRecOn with
    | nil => exact fun h => absurd rfl h
    | append_singleton t x ih =>
      intro _ hx
      rw [← List.append_assoc] at hx
      have := h.2 _ _ hx
      by_cases ht : t = []
      · rw [ht, List.append_nil] at this; exact this
      · exact ih ht (by rw [this]; simp)
  by_contra hx
  exact hd (hup t (by rintro rfl; exact hne (List.append_nil _)) hx)

theorem lock_nothingBelow {root : FPath} {fs : FS} (h : NothingBelow root fs) : NothingBelow root (lock root fs).1 := by
  have hsame : ∀ q, commandPath root <+: q → (lock root fs).1 q = fs q := by
    intro q hq
    have hlen := hq.length_le
    have e1 : q ≠ lockPath root := by
      rintro rfl
      simp [commandPath, lockPath] at hlen
    have e2 : ¬ q <+: root := by
      intro h
      have := h.length_le
      simp [commandPath] at hlen
      omega
    have hd : (lockPath root).dropLast = root := by simp [lockPath]
    unfold lock touch
    rw [(openCreate_other (lockPath root) _).1 q e1, hd]
    unfold createDirAll
    split
    · rfl
    · exact if_neg (by simpa using e2)
  intro q hq hne hd
  rw [hsame q hq]
  rw [hsame _ List.prefix_rfl] at hd
  exact h q hq hne hd

/-- Success of an operation. -/
def okOf {α : Type} : Except IoError α → Bool
  | .ok _ => true
  | .error _ => false

/-- The part of `clean` before `unlock`, for gc-clean and gc-random. -/
theorem iter_removed {nd : Char → Bool} {order : DirectedGraph → DirectedGraph} {root : FPath} {job : Job}
    (hjob : ∀ pc w, (pc = .start ∨ pc = .dirs ∨ pc = .locked ∨ (∃ b, pc = .listed b) ∨ pc = .emptied) →
      stepJob nd order root job pc w = stepClean root pc w)
    (w : World) (hb : NothingBelow root w.fs) :
    (∀ e, (lock root w.fs).2 = .error e → iter nd order root job 2 .start w = ({ w with fs := (lock root w.fs).1 }, .finished false)) ∧
    ((lock root w.fs).2 = .ok () → ∃ n w', n ≤ 6 ∧
      iter nd order root job n .start w = (w', .unlocking (okOf (removeDirAll (rootPath root) (lock root w.fs).1).2)) ∧
      w'.fs = (removeDirAll (rootPath root) (lock root w.fs).1).1) := by
  have hlast : (lockPath root).dropLast = root := by simp [lockPath]
  have hlock : lock root w.fs = openCreate (lockPath root) (createDirAll root w.fs).1 := by unfold lock touch; rw [hlast]
  have hb1 := lock_nothingBelow hb
  have h2 : ∀ r, lock root w.fs = r → iter nd order root job 2 .start w =
      ({ w with fs := r.1 }, match r.2 with | .ok _ => .locked | .error _ => .finished false) := by
    rintro r rfl
    unfold iter iter iter
    rw [hjob _ _ (.inl rfl)]
    dsimp only [stepClean, stepLock]
    rw [hjob _ _ (.inr (.inl rfl))]
    dsimp only [stepClean, stepLock]
    rw [hlock]
    generalize openCreate (lockPath root) (createDirAll root w.fs).1 = r
    obtain ⟨fs, r⟩ := r
    cases r <;> rfl
  generalize lock root w.fs = r at h2 hb1 ⊢
  obtain ⟨fs1, r⟩ := r
  replace h2 := h2 _ rfl
  dsimp only at h2 hb1 ⊢
  refine ⟨?_, ?_⟩
  · rintro e rfl
    exact h2
  · rintro rfl
    dsimp only at h2
    unfold removeDirAll
    have h3 : ∀ n, iter nd order root job (2 + n) .start w = iter nd order root job n .locked { w with fs := fs1 } := by
      intro n
      rw [iter_add, h2]
    have hs : ∀ n pc w, (pc = .start ∨ pc = .dirs ∨ pc = .locked ∨ (∃ b, pc = .listed b) ∨ pc = .emptied) →
        iter nd order root job (n + 1) pc w = iter nd order root job n (stepClean root pc w).2 (stepClean root pc w).1 := by
      intro n pc w h
      change iter nd order root job n (stepJob nd order root job pc w).2 (stepJob nd order root job pc w).1 = _
      rw [hjob pc w h]
    generalize hroot : fs1 (rootPath root) = x
    by_cases hx : x = some .dir
    · subst hx
      dsimp only [okOf]
      have hcr : rootPath root ≠ commandPath root := command_not_prefix root List.prefix_rfl
      have hrr : ¬ commandPath root <+: rootPath root := by
        intro h
        have := h.length_le
        simp [commandPath, rootPath] at this
      -- the last two steps
      have hfin : ∀ w2 : World, (∀ q, ¬ commandPath root <+: q → w2.fs q = fs1 q) → (∀ q, commandPath root <+: q → w2.fs q = none) →
          ∃ w', iter nd order root job 2 (.listed false) w2 = (w', .unlocking true) ∧
            w'.fs = fun q => if (rootPath root).isPrefixOf q then none else fs1 q := by
        intro w2 h1 h2
        have e1 : (w2.removeOthers root).fs (rootPath root) = some .dir := by
          unfold World.removeOthers
          dsimp only
          rw [if_neg (by simp), h1 _ hrr, hroot]
        have e2 : (w2.removeOthers root).fs (commandPath root) = none := by
          unfold World.removeOthers
          dsimp only
          rw [if_neg (by simp), h2 _ List.prefix_rfl]
        refine ⟨{ w2.removeOthers root with fs := (w2.removeOthers root).fs.set (rootPath root) none }, ?_, removed_all h1 h2⟩
        rw [hs 1 _ _ (.inr (.inr (.inr (.inl ⟨_, rfl⟩))))]
        dsimp only [stepClean, stepRemove]
        rw [hs 0 _ _ (.inr (.inr (.inr (.inr rfl))))]
        dsimp only [stepClean, stepRemove]
        rw [e1, e2]
        rfl
      generalize hcmd : fs1 (commandPath root) = y
      rcases y with _ | (_ | d)
      · obtain ⟨w', h4, h5⟩ := hfin { w with fs := fs1 } (fun _ _ => rfl) (by
          intro q hq
          by_cases e : q = commandPath root
          · rw [e]; exact hcmd
          · exact hb1 q hq e (by rw [hcmd]; simp))
        refine ⟨5, w', by omega, ?_, h5⟩
        rw [h3 3, hs 2 _ _ (.inr (.inr (.inl rfl)))]
        dsimp only [stepClean, stepRemove]
        rw [hroot, hcmd]
        exact h4
      · obtain ⟨w', h4, h5⟩ := hfin { w with fs := fun q => if (commandPath root).isPrefixOf q then none else fs1 q }
          (fun q hq => if_neg (by simpa using hq)) (fun q hq => if_pos (by simpa using hq))
        refine ⟨6, w', by omega, ?_, h5⟩
        rw [h3 4, hs 3 _ _ (.inr (.inr (.inl rfl)))]
        dsimp only [stepClean, stepRemove]
        rw [hroot, hcmd]
        dsimp only [Option.isSome]
        rw [hs 2 _ _ (.inr (.inr (.inr (.inl ⟨_, rfl⟩))))]
        dsimp only [stepClean, stepRemove, World.unlink]
        rw [hcmd]
        exact h4
      · obtain ⟨w', h4, h5⟩ := hfin ⟨fs1.set (commandPath root) none, w.gen + 1, fun k => if k = w.gen then d else w.orphan k⟩
          (by
            intro q hq
            exact FS.set_other _ _ (by rintro rfl; exact hq List.prefix_rfl))
          (by
            intro q hq
            dsimp only
            by_cases e : q = commandPath root
            · rw [e, FS.set_self]
            · rw [FS.set_other _ _ e]
              exact hb1 q hq e (by rw [hcmd]; simp))
        refine ⟨6, w', by omega, ?_, h5⟩
        rw [h3 4, hs 3 _ _ (.inr (.inr (.inl rfl)))]
        dsimp only [stepClean, stepRemove]
        rw [hroot, hcmd]
        dsimp only [Option.isSome]
        rw [hs 2 _ _ (.inr (.inr (.inr (.inl ⟨_, rfl⟩))))]
        dsimp only [stepClean, stepRemove, World.unlink]
        rw [hcmd]
        exact h4
    · refine ⟨3, { w with fs := fs1 }, by omega, ?_, ?_⟩
      · rw [h3 1, hs 0 _ _ (.inr (.inr (.inl rfl)))]
        dsimp only [stepClean, stepRemove]
        rw [hroot]
        rcases x with _ | (_ | d)
        · rfl
        · exact absurd rfl hx
        · rfl
      · rcases x with _ | (_ | d)
        · rfl
        · exact absurd rfl hx
        · rfl

/-- gc-clean alone. -/
theorem clean_alone {nd : Char → Bool} {order : DirectedGraph → DirectedGraph} {root : FPath} (w : World) (hb : NothingBelow root w.fs) (m : Nat) (hm : 7 ≤ m) :
    (iter nd order root .clean m .start w).1.fs = (clean root w.fs).1 ∧
      (iter nd order root .clean m .start w).2 = .finished (okOf (clean root w.fs).2) := by
  obtain ⟨h1, h2⟩ := iter_removed (nd := nd) (order := order) (root := root) (job := .clean) (fun _ _ _ => rfl) w hb
  unfold clean withLock
  generalize lock root w.fs = r at h1 h2 ⊢
  obtain ⟨fs1, r⟩ := r
  cases r with
  | error e =>
    obtain ⟨n, rfl⟩ := Nat.exists_eq_add_of_le (show 2 ≤ m by omega)
    rw [iter_add, h1 e rfl, iter_finished]
    exact ⟨rfl, rfl⟩
  | ok u =>
    cases u
    obtain ⟨n, w', hn, h3, h4⟩ := h2 rfl
    obtain ⟨k, rfl⟩ := Nat.exists_eq_add_of_le (show n + 1 ≤ m by omega)
    rw [iter_add, iter_add, h3]
    dsimp only at h4 ⊢
    generalize removeDirAll (rootPath root) fs1 = r at h4 ⊢
    obtain ⟨fs2, res⟩ := r
    dsimp only at h4 ⊢
    rw [show iter nd order root .clean 1 (.unlocking (okOf res)) w' = stepUnlock root (okOf res) (.finished true) w' from rfl]
    unfold stepUnlock
    rw [h4]
    generalize unlock root fs2 = r
    obtain ⟨fs3, u⟩ := r
    cases u with
    | error e =>
      dsimp only
      rw [iter_finished]
      exact ⟨rfl, rfl⟩
    | ok u =>
      dsimp only
      have e : (if okOf res = true then Pc.finished true else .finished false) = .finished (okOf res) := by cases okOf res <;> rfl
      rw [e, iter_finished]
      cases res <;> exact ⟨rfl, rfl⟩

/-- The `write` calls of saving. -/
theorem rewriting_alone {nd : Char → Bool} {order : DirectedGraph → DirectedGraph} {root : FPath} {g0 : DirectedGraph} (rest : List Text) :
    ∀ (d : Text) (w : World), w.fs (commandPath root) = some (.file d) → ∀ m, rest.length + 1 ≤ m →
      (iter nd order root (.random g0) m (.rewriting w.gen d.length rest) w).1.fs = w.fs.set (commandPath root) (some (.file (d ++ rest.flatten))) ∧
      (iter nd order root (.random g0) m (.rewriting w.gen d.length rest) w).2 = .finished true := by
  induction rest with
  | nil =>
    intro d w hw m hm
    obtain ⟨k, rfl⟩ := Nat.exists_eq_add_of_le hm
    rw [iter_add]
    change (iter nd order root (.random g0) k (.finished true) w).1.fs = _ ∧ _
    rw [iter_finished]
    refine ⟨?_, ?_⟩
    · dsimp only
      rw [List.flatten_nil, List.append_nil]
      funext q
      by_cases e : q = commandPath root
      · rw [e, FS.set_self, hw]
      · rw [FS.set_other _ _ e]
    · change (iter nd order root (.random g0) k (.finished true) w).2 = _
      rw [iter_finished]
  | cons t rest ih =>
    intro d w hw m hm
    obtain ⟨k, rfl⟩ := Nat.exists_eq_add_of_le (show 1 ≤ m by simp at hm; omega)
    have hstep : iter nd order root (.random g0) 1 (.rewriting w.gen d.length (t :: rest)) w =
        ({ w with fs := w.fs.set (commandPath root) (some (.file (d ++ t))) }, .rewriting w.gen (d ++ t).length rest) := by
      change (w.writeAt root w.gen d.length t, Pc.rewriting w.gen (d.length + t.length) rest) = _
      unfold World.writeAt Concurrent.writeAt
      rw [if_pos rfl, hw]
      have hd : d.drop (d.length + t.length) = [] := List.drop_eq_nil_of_le (Nat.le_add_right _ _)
      simp [hd]
    rw [iter_add, hstep]
    have := ih (d ++ t) { w with fs := w.fs.set (commandPath root) (some (.file (d ++ t))) } (FS.set_self _ _ _) k (by simp at hm; omega)
    dsimp only at this ⊢
    rw [set_set, List.append_assoc] at this
    rw [List.flatten_cons]
    exact this

/-- command/src/bin/gc-random.rs 93-104 with the operations of the sequential model: `clean`, then `init`, then `save_graph_as_commands`;
the first error ends it. -/
def replaceGraph (root : FPath) (g : DirectedGraph) (fs : FS) : Io Unit :=
  match clean root fs with
  | (fs1, .error e) => (fs1, .error e)
  | (fs1, .ok ()) =>
    match init root fs1 with
    | (fs2, .error e) => (fs2, .error e)
    | (fs2, .ok ()) => saveGraphAsCommands root g fs2

theorem replaceGraph_eq (root : FPath) (g : DirectedGraph) (fs : FS) :
    (replaceGraph root g fs).1 = (Random.replaceGraph root g fs).1 ∧
    ((Random.replaceGraph root g fs).2 = .success → okOf (replaceGraph root g fs).2 = true) ∧
    ((Random.replaceGraph root g fs).2 = .panic → okOf (replaceGraph root g fs).2 = false) := by
  unfold replaceGraph Random.replaceGraph
  rcases clean root fs with ⟨fs1, _ | _⟩
  · exact ⟨rfl, fun h => (by cases h), fun _ => rfl⟩
  · dsimp only [expectOk, andThen]
    rcases init root fs1 with ⟨fs2, _ | _⟩
    · exact ⟨rfl, fun h => (by cases h), fun _ => rfl⟩
    · dsimp only [expectOk, andThen]
      rcases saveGraphAsCommands root g fs2 with ⟨fs3, _ | _⟩
      · exact ⟨rfl, fun h => (by cases h), fun _ => rfl⟩
      · exact ⟨rfl, fun _ => rfl, fun h => by cases h⟩

/-- gc-random alone. -/
theorem random_alone {nd : Char → Bool} {order : DirectedGraph → DirectedGraph} {root : FPath} (g : DirectedGraph) (w : World) (hb : NothingBelow root w.fs)
    (m : Nat) (hm : 11 + (saveWrites (order g)).length ≤ m) :
    (iter nd order root (.random g) m .start w).1.fs = (replaceGraph root (order g) w.fs).1 ∧
      (iter nd order root (.random g) m .start w).2 = .finished (okOf (replaceGraph root (order g) w.fs).2) := by
  obtain ⟨h1, h2⟩ := iter_removed (nd := nd) (order := order) (root := root) (job := .random g) (by
    rintro pc w (rfl | rfl | rfl | ⟨b, rfl⟩ | rfl) <;> rfl) w hb
  unfold replaceGraph clean withLock
  generalize lock root w.fs = r at h1 h2 ⊢
  obtain ⟨fs1, r⟩ := r
  cases r with
  | error e =>
    obtain ⟨n, rfl⟩ := Nat.exists_eq_add_of_le (show 2 ≤ m by omega)
    rw [iter_add, h1 e rfl, iter_finished]
    exact ⟨rfl, rfl⟩
  | ok u =>
    cases u
    obtain ⟨n, w', hn, h3, h4⟩ := h2 rfl
    obtain ⟨k, rfl⟩ := Nat.exists_eq_add_of_le (show n + 1 ≤ m by omega)
    rw [iter_add, iter_add, h3]
    dsimp only at h4 ⊢
    generalize removeDirAll (rootPath root) fs1 = r at h4 ⊢
    obtain ⟨fs2, res⟩ := r
    dsimp only at h4 ⊢
    rw [show iter nd order root (.random g) 1 (.unlocking (okOf res)) w' = stepUnlock root (okOf res) .initialising w' from rfl]
    unfold stepUnlock
    rw [h4]
    generalize unlock root fs2 = r
    obtain ⟨fs3, u⟩ := r
    cases u with
    | error e =>
      dsimp only
      rw [iter_finished]
      exact ⟨rfl, rfl⟩
    | ok u =>
      dsimp only
      cases res with
      | error e =>
        have e : (if okOf (Except.error e : Except IoError Unit) = true then Pc.initialising else .finished false) = .finished false := rfl
        rw [e, iter_finished]
        exact ⟨rfl, rfl⟩
      | ok v =>
        cases v
        have e : (if okOf (Except.ok () : Except IoError Unit) = true then Pc.initialising else .finished false) = .initialising := rfl
        rw [e]
        dsimp only
        have hlast : (commandPath root).dropLast = rootPath root := by simp [commandPath, rootPath]
        obtain ⟨k, rfl⟩ := Nat.exists_eq_add_of_le (show 2 ≤ k by omega)
        rw [iter_add]
        rw [show ∀ w, iter nd order root (.random g) 2 .initialising w = initFile root (.loaded (order g)) (initDir root w) from fun _ => rfl]
        unfold initFile initDir init touch
        dsimp only
        rw [hlast]
        generalize openCreate (commandPath root) (createDirAll (rootPath root) fs3).1 = r
        obtain ⟨fs4, r⟩ := r
        cases r with
        | error e =>
          dsimp only
          rw [iter_finished]
          exact ⟨rfl, rfl⟩
        | ok u =>
          dsimp only
          obtain ⟨k, rfl⟩ := Nat.exists_eq_add_of_le (show 1 ≤ k by omega)
          rw [iter_add]
          rw [show ∀ w, iter nd order root (.random g) 1 (.loaded (order g)) w = stepSave root (.loaded (order g)) w from fun _ => rfl]
          dsimp only [stepSave]
          unfold saveGraphAsCommands
          have htr : ∀ fs5, createTruncate (commandPath root) fs4 = (fs5, .ok ()) → fs5 (commandPath root) = some (.file []) := by
            intro fs5 h
            unfold createTruncate at h
            split at h
            · cases h; exact FS.set_self _ _ _
            · cases h
            · split at h
              · cases h; exact FS.set_self _ _ _
              · cases h
              · cases h
          generalize createTruncate (commandPath root) fs4 = r at htr
          obtain ⟨fs5, r⟩ := r
          cases r with
          | error e =>
            dsimp only
            rw [iter_finished]
            exact ⟨rfl, rfl⟩
          | ok u =>
            have h6 := htr fs5 rfl
            dsimp only
            have := rewriting_alone (nd := nd) (order := order) (root := root) (g0 := g) (saveWrites (order g)) [] ⟨fs5, w'.gen, w'.orphan⟩ h6 k (by omega)
            rw [List.nil_append, saveWrites_flatten] at this
            refine ⟨this.1.trans ?_, this.2⟩
            unfold appendText
            rw [h6]
            rfl

end Unlink
end GC
