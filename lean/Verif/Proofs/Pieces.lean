/-
Proofs about processes that may remove the command file, with batches of any size.
-/
import Verif.Spec.Pieces
import Verif.Proofs.Unlink
namespace GC
namespace Unlink
namespace Piece
open Store Text Format Concurrent

variable {nd : Char → Bool} {order : Nat → DirectedGraph → DirectedGraph} {root : FPath} {jobs : List Job}

abbrev Log := Nat → List (Nat × Text)

theorem fileText_append (c : Text) (k : Nat) (l : List (Nat × Text)) (p : Nat × Text) : fileText c k (l ++ [p]) = fileText c k l ++ p.2 := by
  unfold fileText; simp

theorem fileText_prefix {c : Text} {k : Nat} {l l' : List (Nat × Text)} (h : l <+: l') : fileText c k l <+: fileText c k l' := by
  obtain ⟨t, rfl⟩ := h
  unfold fileText
  rw [List.map_append, List.flatten_append, ← List.append_assoc]
  exact List.prefix_append _ _

theorem contribution_self (i : Nat) (l : List (Nat × Text)) (t : Text) : contribution i (l ++ [(i, t)]) = contribution i l ++ t := by
  unfold contribution; simp [List.filter_append]

theorem contribution_other {i j : Nat} (h : j ≠ i) (l : List (Nat × Text)) (t : Text) : contribution j (l ++ [(i, t)]) = contribution j l := by
  unfold contribution
  rw [List.filter_append]
  simp [Ne.symm h]

theorem contribution_none {i : Nat} {l : List (Nat × Text)} (h : ∀ p ∈ l, p.1 ≠ i) : contribution i l = [] := by
  unfold contribution
  rw [List.filter_eq_nil_iff.2 (by intro p hp; simpa using h p hp)]
  rfl

/-- A moment in the past, see `Unlink.Past`. -/
structure Past where
  late : Nat → Prop
  gen : Nat
  bound : Nat
  log : Log

/-- File `h` was opened by process `i`. -/
def Opened (p : Past) (gen : Nat) (slot : Option Node) (i h : Nat) : Prop :=
  h ≤ gen ∧ (h = gen → slot ≠ none) ∧ (p.late i → p.gen ≤ h) ∧ (¬ p.late i → h < p.bound)

/-- What was read is a beginning of the file. -/
def Reads (r : Reader) (c : Text) : Prop := r.offset = (r.closed.flatten ++ r.current).length ∧ r.closed.flatten ++ r.current <+: c

theorem Reads.mono {r : Reader} {c d : Text} (h : Reads r c) (hd : c <+: d) : Reads r d := ⟨h.1, h.2.trans hd⟩

/-- What is known about a process. -/
def ProcOk (nd : Char → Bool) (c : Text) (p : Past) (W : Log) (gen : Nat) (slot : Option Node) (i : Nat) : Job → Pc → Prop
  | .add _, .start => p.late i ∧ ∀ k, ∀ q ∈ W k, q.1 ≠ i
  | .add _, .dirs => p.late i ∧ ∀ k, ∀ q ∈ W k, q.1 ≠ i
  | .add _, .locked => p.late i ∧ ∀ k, ∀ q ∈ W k, q.1 ≠ i
  | .add cs, .writing h rest => Opened p gen slot i h ∧ contribution i (W h) ++ rest.flatten = Gcmd.commandsText cs ∧
      ∀ k, ∀ q ∈ W k, q.1 = i → k = h
  | .add cs, .unlocking true => ∃ k, k ≤ gen ∧ contribution i (W k) = Gcmd.commandsText cs
  | .add cs, .finished true => ∃ k, k ≤ gen ∧ contribution i (W k) = Gcmd.commandsText cs
  | .query, .start => p.late i
  | .query, .reading h r => Opened p gen slot i h ∧ Reads r (fileText c h (W h))
  | .query, .answered res => res = .done (.error (.io .notFound)) ∨
      ∃ h pre, Opened p gen slot i h ∧ pre <+: W h ∧ (p.late i → p.log h <+: pre) ∧ ReadAs nd (fileText c h pre) res
  | _, _ => True

theorem Opened.mono {p : Past} {gen gen' : Nat} {slot slot' : Option Node} {i h : Nat} (o : Opened p gen slot i h) (hg : gen ≤ gen')
    (hs : gen = gen' → slot ≠ none → slot' ≠ none) : Opened p gen' slot' i h := by
  obtain ⟨h1, h2, h3⟩ := o
  exact ⟨by omega, fun e => hs (by omega) (h2 (by omega)), h3⟩

theorem ProcOk.mono {c : Text} {p : Past} {W W' : Log} {gen gen' : Nat} {slot slot' : Option Node} {i : Nat}
    {job : Job} {pc : Pc} (h : ProcOk nd c p W gen slot i job pc) (hg : gen ≤ gen') (hs : gen = gen' → slot ≠ none → slot' ≠ none)
    (hW : ∀ k, W k <+: W' k) (hi : ∀ k, ∀ q ∈ W' k, q.1 = i → q ∈ W k) (hc : ∀ k, contribution i (W' k) = contribution i (W k)) :
    ProcOk nd c p W' gen' slot' i job pc := by
  unfold ProcOk at h ⊢
  split at h
  · exact ⟨h.1, fun k q hq e => h.2 k q (hi k q hq e) e⟩
  · exact ⟨h.1, fun k q hq e => h.2 k q (hi k q hq e) e⟩
  · exact ⟨h.1, fun k q hq e => h.2 k q (hi k q hq e) e⟩
  · exact ⟨h.1.mono hg hs, by rw [hc]; exact h.2.1, fun k q hq e => h.2.2 k q (hi k q hq e) e⟩
  · obtain ⟨k, h1, h2⟩ := h
    exact ⟨k, le_trans h1 hg, by rw [hc]; exact h2⟩
  · obtain ⟨k, h1, h2⟩ := h
    exact ⟨k, le_trans h1 hg, by rw [hc]; exact h2⟩
  · exact h
  · exact ⟨h.1.mono hg hs, h.2.mono (fileText_prefix (hW _))⟩
  · rcases h with h | ⟨h, pre, h1, h2, h3, h4⟩
    · exact .inl h
    · exact .inr ⟨h, pre, h1.mono hg hs, h2.trans (hW _), h3, h4⟩
  · trivial

/-- The contents of all files. -/
structure WorldOk (root : FPath) (c : Text) (W : Log) (w : World) : Prop where
  slot : (w.slot root = none ∧ W w.gen = [] ∧ w.gen ≠ 0) ∨ w.slot root = some (.file (fileText c w.gen (W w.gen)))
  future : ∀ k, w.gen < k → W k = []
  orphan : ∀ k, k < w.gen → w.orphan k = fileText c k (W k)

/-- The pieces. -/
structure LogOk (jobs : List Job) (p : Past) (W : Log) : Prop where
  unique : ∀ k l, ∀ q ∈ W k, ∀ r ∈ W l, q.1 = r.1 → k = l
  adds : ∀ k, ∀ q ∈ W k, ∃ cs, jobs[q.1]? = some (.add cs)
  batch : ∀ i cs k, jobs[i]? = some (.add cs) → contribution i (W k) <+: Gcmd.commandsText cs
  past : ∀ k, p.log k <+: W k
  late : ∀ k, ∀ q ∈ W k, p.late q.1 → p.gen ≤ k ∧ ∀ r ∈ p.log k, r.1 ≠ q.1
  early : ∀ k, ∀ q ∈ W k, ¬ p.late q.1 → k < p.bound

structure Inv (nd : Char → Bool) (root : FPath) (jobs : List Job) (c : Text) (p : Past) (W : Log) (s : Sys) : Prop where
  world : WorldOk root c W s.world
  log : LogOk jobs p W
  gen : p.gen ≤ s.world.gen
  proc : ∀ i job, jobs[i]? = some job → ProcOk nd c p W s.world.gen (s.world.slot root) i job (s.pc i)

theorem effect_world {w w' : World} {c : Text} {W : Log} (e : Effect root w w') (h : WorldOk root c W w) : WorldOk root c W w' := by
  cases e with
  | same h1 h2 h3 =>
    exact ⟨by rw [h1, h2]; exact h.slot, by rw [h2]; exact h.future, by rw [h2, h3]; exact h.orphan⟩
  | create h1 h2 h3 h4 =>
    refine ⟨.inr ?_, by rw [h3]; exact h.future, by rw [h3, h4]; exact h.orphan⟩
    rcases h.slot with ⟨_, e, e'⟩ | e
    · rw [h2, h3, e]
      simp [fileText, e']
    · rw [h1] at e; cases e
  | remove d h1 h2 h3 h4 =>
    have hd : d = fileText c w.gen (W w.gen) := by
      rcases h.slot with ⟨e, _⟩ | e
      · rw [h1] at e; cases e
      · rw [h1] at e; cases e; rfl
    refine ⟨.inl ⟨h2, ?_, by omega⟩, fun k hk => h.future k (by omega), ?_⟩
    · rw [h3]; exact h.future _ (by omega)
    · intro k hk
      rw [h4]
      dsimp only
      by_cases e : k = w.gen
      · rw [if_pos e, e]; exact hd
      · rw [if_neg e]; exact h.orphan k (by omega)

/-- A step that does not write. -/
theorem Inv.effect {c : Text} {p : Past} {W : Log} {s : Sys} (h : Inv nd root jobs c p W s) {i : Nat} {job : Job}
    (hj : jobs[i]? = some job) {w' : World} {pc' : Pc} (e : Effect root s.world w')
    (hp : ProcOk nd c p W w'.gen (w'.slot root) i job (s.pc i) → ProcOk nd c p W w'.gen (w'.slot root) i job pc') :
    Inv nd root jobs c p W ⟨w', fun j => if j = i then pc' else s.pc j⟩ := by
  refine ⟨effect_world e h.world, h.log, le_trans h.gen e.mono.1, ?_⟩
  intro j job' hj'
  have hm : ProcOk nd c p W w'.gen (w'.slot root) j job' (s.pc j) :=
    (h.proc j job' hj').mono e.mono.1 e.mono.2 (fun _ => List.prefix_rfl) (fun _ _ h _ => h) (fun _ => rfl)
  dsimp only
  by_cases e' : j = i
  · subst e'
    rw [if_pos rfl]
    rw [hj] at hj'
    cases hj'
    exact hp hm
  · rw [if_neg e']
    exact hm

theorem WorldOk.not_dir {c : Text} {W : Log} {w : World} (h : WorldOk root c W w) : w.slot root ≠ some .dir := by
  rcases h.slot with ⟨e, _⟩ | e <;> rw [e] <;> simp

theorem WorldOk.content {c : Text} {W : Log} {w : World} (h : WorldOk root c W w) {k : Nat} (hk : k ≤ w.gen)
    (hs : k = w.gen → w.slot root ≠ none) : w.content root k = some (fileText c k (W k)) := by
  unfold World.content
  by_cases e : k = w.gen
  · rw [if_pos e]
    rcases h.slot with ⟨e', _⟩ | e'
    · exact absurd e' (hs e)
    · change w.fs (commandPath root) = _ at e'
      rw [e', e]
  · rw [if_neg e, h.orphan k (by omega)]

/-- One `write` of a process. -/
theorem WorldOk.append {c : Text} {W : Log} {w : World} (h : WorldOk root c W w) {k : Nat} (hk : k ≤ w.gen)
    (hs : k = w.gen → w.slot root ≠ none) (i : Nat) (t : Text) :
    WorldOk root c (fun l => if l = k then W k ++ [(i, t)] else W l) (w.append root k t) := by
  have ht : fileText c k (W k ++ [(i, t)]) = fileText c k (W k) ++ t := fileText_append _ _ _ _
  unfold World.append
  by_cases e : k = w.gen
  · rw [if_pos e]
    subst e
    rcases h.slot with ⟨e', _⟩ | e'
    · exact absurd e' (hs rfl)
    · refine ⟨.inr ?_, ?_, ?_⟩
      · change w.fs (commandPath root) = _ at e'
        unfold appendText World.slot
        rw [e']
        dsimp only
        rw [FS.set_self, if_pos rfl, ht]
      · intro l hl
        dsimp only at hl ⊢
        rw [if_neg (by omega)]
        exact h.future l hl
      · intro l hl
        dsimp only at hl ⊢
        rw [if_neg (by omega)]
        exact h.orphan l hl
  · rw [if_neg e]
    have e2 : ¬ w.gen = k := fun h => e h.symm
    refine ⟨?_, ?_, ?_⟩
    · dsimp only
      rw [if_neg e2]
      exact h.slot
    · intro l hl
      dsimp only at hl ⊢
      rw [if_neg (by omega)]
      exact h.future l hl
    · intro l hl
      dsimp only at hl ⊢
      by_cases e' : l = k
      · rw [if_pos e', if_pos e', e', h.orphan k (by omega), ht]
      · rw [if_neg e', if_neg e']
        exact h.orphan l hl

/-- The writing step. -/
theorem Inv.write {c : Text} {p : Past} {W : Log} {s : Sys} (h : Inv nd root jobs c p W s) {i : Nat} {cs : List GraphCommand}
    (hj : jobs[i]? = some (.add cs)) {k : Nat} {t : Text} {rest : List Text} (ho : Opened p s.world.gen (s.world.slot root) i k)
    (ht : contribution i (W k) ++ (t :: rest).flatten = Gcmd.commandsText cs) (hn : ∀ l, ∀ q ∈ W l, q.1 = i → l = k)
    (hlate : p.late i → ∀ r ∈ p.log k, r.1 ≠ i) :
    Inv nd root jobs c p (fun l => if l = k then W k ++ [(i, t)] else W l)
      ⟨s.world.append root k t, fun j => if j = i then .writing k rest else s.pc j⟩ := by
  have hw := h.world.append ho.1 ho.2.1 i t
  have hW : ∀ l, W l <+: (if l = k then W k ++ [(i, t)] else W l) := by
    intro l
    split
    · rename_i e; rw [e]; exact List.prefix_append _ _
    · exact List.prefix_rfl
  have hmem : ∀ l q, q ∈ (if l = k then W k ++ [(i, t)] else W l) → q ∈ W l ∨ (q.1 = i ∧ l = k) := by
    intro l q hm
    split at hm
    · rename_i e
      rcases List.mem_append.1 hm with hm | hm
      · rw [e]; exact .inl hm
      · exact .inr ⟨by rw [List.mem_singleton.1 hm], e⟩
    · exact .inl hm
  have hother : ∀ j, j ≠ i → ∀ l, contribution j (if l = k then W k ++ [(i, t)] else W l) = contribution j (W l) := by
    intro j hji l
    split
    · rename_i e; rw [e]; exact contribution_other hji _ _
    · rfl
  refine ⟨hw, ⟨?_, ?_, ?_, ?_, ?_, ?_⟩, ?_, ?_⟩
  · intro l l' q h1 r h2 e
    rcases hmem l q h1 with h1 | h1 <;> rcases hmem l' r h2 with h2 | h2
    · exact h.log.unique l l' q h1 r h2 e
    · rw [h2.2]; exact hn l q h1 (e.trans h2.1)
    · rw [h1.2]; exact (hn l' r h2 (e.symm.trans h1.1)).symm
    · exact h1.2.trans h2.2.symm
  · intro l q h1
    rcases hmem l q h1 with h1 | h1
    · exact h.log.adds l q h1
    · rw [h1.1]; exact ⟨cs, hj⟩
  · intro j cs' l hj'
    by_cases e : j = i
    · subst e
      rw [hj] at hj'
      cases hj'
      split
      · rw [contribution_self, ← ht, List.flatten_cons, ← List.append_assoc]
        exact List.prefix_append _ _
      · exact h.log.batch _ _ l hj
    · rw [hother j e]
      exact h.log.batch j cs' l hj'
  · exact fun l => (h.log.past l).trans (hW l)
  · intro l q h1 hp
    rcases hmem l q h1 with h1 | h1
    · exact h.log.late l q h1 hp
    · rw [h1.1] at hp ⊢
      rw [h1.2]
      exact ⟨ho.2.2.1 hp, hlate hp⟩
  · intro l q h1 hp
    rcases hmem l q h1 with h1 | h1
    · exact h.log.early l q h1 hp
    · rw [h1.1] at hp
      rw [h1.2]
      exact ho.2.2.2 hp
  · exact le_of_le_of_eq h.gen (World.append_gen _ _ _).symm
  · have hg : s.world.gen ≤ (s.world.append root k t).gen := (World.append_gen _ _ _).symm.le
    intro j job' hj'
    dsimp only
    by_cases e : j = i
    · subst e
      rw [if_pos rfl]
      rw [hj] at hj'
      cases hj'
      refine ⟨ho.mono hg fun _ => World.append_slot _ _ _, ?_, ?_⟩
      · dsimp only
        rw [if_pos rfl, contribution_self, List.append_assoc]
        exact ht
      · intro l q hq e
        rcases hmem l q hq with h1 | h1
        · exact hn l q h1 e
        · exact h1.2
    · rw [if_neg e]
      refine (h.proc j job' hj').mono hg (fun _ => World.append_slot _ _ _) hW ?_ (hother j e)
      intro l q hq e'
      rcases hmem l q hq with h1 | h1
      · exact h1
      · exact absurd (e'.symm.trans h1.1) e

theorem readChunk_prefix {r : Reader} {c : Text} (h : Reads r c) : r.closed.flatten ++ (r.current ++ readChunk c r.offset) <+: c := by
  obtain ⟨rest, hrest⟩ := h.2
  unfold readChunk
  rw [h.1, ← List.append_assoc, ← hrest, List.drop_left, List.prefix_append_right_inj]
  exact List.take_prefix _ _

theorem readChunk_nil {r : Reader} {c : Text} (h : Reads r c) (hn : readChunk c r.offset = []) : r.closed.flatten ++ r.current = c := by
  obtain ⟨rest, hrest⟩ := h.2
  unfold readChunk at hn
  rw [h.1, ← hrest, List.drop_left] at hn
  rcases List.take_eq_nil_iff.1 hn with h | h
  · cases h
  · rw [← hrest, h, List.append_nil]

/-- Jobs without gc-build and gc-random. -/
theorem Inv.step {c : Text} (ho : NoRewrite jobs) {p : Past} {W : Log} {s : Sys} (h : Inv nd root jobs c p W s) (i : Nat) :
    ∃ W', Inv nd root jobs c p W' (Unlink.step nd order root jobs s i) ∧ ∀ k, W k <+: W' k := by
  unfold Unlink.step
  cases hj : jobs[i]? with
  | none => exact ⟨W, h, fun _ => List.prefix_rfl⟩
  | some job =>
    dsimp only
    have hpi := h.proc i job hj
    cases job with
    | build => exact absurd hj (ho.1 i)
    | random g => exact absurd hj (ho.2 i g)
    | init =>
      refine ⟨W, h.effect hj (effect_init s.world (s.pc i)) fun _ => ?_, fun _ => List.prefix_rfl⟩
      simp only [ProcOk]
    | clean =>
      refine ⟨W, h.effect hj (effect_clean s.world h.world.not_dir (s.pc i)) fun _ => ?_, fun _ => List.prefix_rfl⟩
      simp only [ProcOk]
    | query =>
      refine ⟨W, ?_, fun _ => List.prefix_rfl⟩
      dsimp only [stepJob, stepQuery]
      generalize hpc : s.pc i = pc at hpi
      cases pc with
      | start =>
        dsimp only [stepOpen, Concurrent.stepOpen]
        rcases h.world.slot with ⟨e, e'⟩ | e
        · change s.world.fs (commandPath root) = _ at e
          rw [e]
          exact h.effect hj (.refl _) fun _ => .inl rfl
        · have e0 := e
          change s.world.fs (commandPath root) = _ at e
          rw [e]
          refine h.effect hj (.refl _) fun _ => ⟨⟨le_rfl, fun _ => by rw [e0]; simp, fun _ => h.gen, fun hn => absurd hpi hn⟩, rfl, List.nil_prefix⟩
      | reading k r =>
        obtain ⟨ho', hr⟩ := hpi
        have hc := h.world.content ho'.1 ho'.2.1
        dsimp only [stepRead]
        rw [hc]
        dsimp only
        by_cases hn : readChunk (fileText c k (W k)) r.offset = []
        · rw [if_neg (by simpa using hn)]
          have e := readChunk_nil hr hn
          by_cases hl : r.current = [] ∨ r.current.getLast? = some '\n'
          · rw [if_pos hl]
            refine h.effect hj (.refl _) fun _ => .inr ⟨k, W k, ho', List.prefix_rfl, fun _ => h.log.past k, r.closed ++ [r.current], ?_, ?_⟩
            · simpa using e
            · unfold Reader.lines
              simp [List.flatMap_append]
          · rw [if_neg hl]
            refine h.effect hj (.refl _) fun _ => ⟨ho', ?_, ?_⟩
            · simpa using hr.1
            · simpa using hr.2
        · rw [if_pos hn]
          refine h.effect hj (.refl _) fun _ => ⟨ho', ?_, readChunk_prefix hr⟩
          have := hr.1
          simp only [List.length_append] at this ⊢
          omega
      | _ => exact h.effect hj (.refl _) fun h => by rw [hpc] at h; exact h
    | add cs =>
      dsimp only [stepJob]
      generalize hpc : s.pc i = pc at hpi
      cases pc with
      | start =>
        refine ⟨W, h.effect hj (effect_lock s.world .start) fun _ => hpi, fun _ => List.prefix_rfl⟩
      | dirs =>
        refine ⟨W, h.effect hj (effect_lock s.world .dirs) fun _ => ?_, fun _ => List.prefix_rfl⟩
        dsimp only [stepAdd, stepLock]
        generalize openCreate (lockPath root) s.world.fs = r
        obtain ⟨fs, r⟩ := r
        cases r with
        | error e => trivial
        | ok u => exact hpi
      | locked =>
        refine ⟨W, ?_, fun _ => List.prefix_rfl⟩
        dsimp only [stepAdd, openAppend]
        rcases h.world.slot with ⟨e, e'⟩ | e
        · change s.world.fs (commandPath root) = _ at e
          rw [e]
          exact h.effect hj (.refl _) fun _ => trivial
        · have e0 := e
          change s.world.fs (commandPath root) = _ at e
          rw [e]
          refine h.effect hj (.refl _) fun _ => ⟨⟨le_rfl, fun _ => by rw [e0]; simp, fun _ => h.gen, fun hn => absurd hpi.1 hn⟩, ?_, ?_⟩
          · rw [contribution_none (hpi.2 _), addWrites_flatten]; rfl
          · exact fun k q hq e => absurd e (hpi.2 k q hq)
      | writing k rest =>
        obtain ⟨ho', hr, hu⟩ := hpi
        cases rest with
        | nil =>
          refine ⟨W, h.effect hj (.refl _) fun _ => ?_, fun _ => List.prefix_rfl⟩
          exact ⟨k, ho'.1, by simpa using hr⟩
        | cons t rest =>
          have hlate : p.late i → ∀ r ∈ p.log k, r.1 ≠ i := by
            intro hl r hr' e
            have hm := (h.log.past k).subset hr'
            exact (h.log.late k r hm (e ▸ hl)).2 r hr' rfl
          refine ⟨_, h.write hj ho' hr hu hlate, ?_⟩
          intro l
          split
          · rename_i e; rw [e]; exact List.prefix_append _ _
          · exact List.prefix_rfl
      | unlocking ok =>
        refine ⟨W, h.effect hj (effect_unlock s.world ok _) fun hp => ?_, fun _ => List.prefix_rfl⟩
        rw [hpc] at hp
        dsimp only [stepAdd, stepUnlock] at hp ⊢
        generalize unlock root s.world.fs = r at hp ⊢
        obtain ⟨fs, r⟩ := r
        cases r with
        | error e => trivial
        | ok u =>
          cases ok with
          | false => trivial
          | true => exact hp
      | _ => exact ⟨W, h.effect hj (.refl _) fun h => by rw [hpc] at h; exact h, fun _ => List.prefix_rfl⟩

theorem Inv.run {c : Text} (ho : NoRewrite jobs) {p : Past} (schedule : List Nat) :
    ∀ {W : Log} {s : Sys}, Inv nd root jobs c p W s →
      ∃ W', Inv nd root jobs c p W' (schedule.foldl (Unlink.step nd order root jobs) s) ∧ ∀ k, W k <+: W' k := by
  induction schedule with
  | nil => exact fun h => ⟨_, h, fun _ => List.prefix_rfl⟩
  | cons i l ih =>
    intro W s h
    obtain ⟨W1, h1, e1⟩ := h.step (order := order) ho i
    obtain ⟨W2, h2, e2⟩ := ih h1
    exact ⟨W2, h2, fun k => (e1 k).trans (e2 k)⟩

/-- The beginning. -/
theorem inv_init {c : Text} {fs : FS} (hc : Content root fs c) :
    Inv nd root jobs c ⟨fun _ => True, 0, 0, fun _ => []⟩ (fun _ => []) ⟨⟨fs, 0, fun _ => []⟩, fun _ => .start⟩ := by
  refine ⟨⟨.inr ?_, fun _ _ => rfl, fun k hk => absurd hk (Nat.not_lt_zero k)⟩, ⟨?_, ?_, ?_, ?_, ?_, ?_⟩, le_rfl, ?_⟩
  · unfold Content at hc
    simpa [fileText, World.slot] using hc
  · intro k l q h; cases h
  · intro k q h; cases h
  · intro i cs k _; exact List.nil_prefix
  · exact fun _ => List.prefix_rfl
  · intro k q h; cases h
  · intro k q h; cases h
  · intro i job _
    cases job <;> simp [ProcOk]

/-- Another moment to look back at. -/
theorem Inv.rebase {c : Text} {p : Past} {W : Log} {s : Sys} (h : Inv nd root jobs c p W s) {b : Nat}
    (hb : s.world.gen ≤ b) (hb' : s.world.slot root ≠ none → s.world.gen < b) :
    Inv nd root jobs c ⟨fun i => NotOpened (s.pc i), s.world.gen, b, W⟩ W s := by
  have ho : ∀ {q : Past} {i k : Nat}, Opened q s.world.gen (s.world.slot root) i k → ¬ NotOpened (s.pc i) →
      Opened ⟨fun i => NotOpened (s.pc i), s.world.gen, b, W⟩ s.world.gen (s.world.slot root) i k := by
    intro q i k o hn
    refine ⟨o.1, o.2.1, fun h => absurd h hn, fun _ => ?_⟩
    rcases Nat.lt_or_ge k s.world.gen with hk | hk
    · exact lt_of_lt_of_le hk hb
    · have : k = s.world.gen := le_antisymm o.1 hk
      rw [this]
      exact hb' (o.2.1 this)
  refine ⟨h.world, ⟨h.log.unique, h.log.adds, h.log.batch, fun _ => List.prefix_rfl, ?_, ?_⟩, le_rfl, ?_⟩
  · intro k q hq hl
    obtain ⟨cs, hj⟩ := h.log.adds k q hq
    have := h.proc q.1 _ hj
    dsimp only at hl
    rcases hl with e | e | e <;> rw [e] at this <;> exact absurd rfl (this.2 k q hq)
  · intro k q hq _
    dsimp only
    have hne : W k ≠ [] := List.ne_nil_of_mem hq
    rcases Nat.lt_trichotomy k s.world.gen with hk | hk | hk
    · exact lt_of_lt_of_le hk hb
    · rw [hk] at hne ⊢
      refine hb' ?_
      rcases h.world.slot with ⟨_, e, _⟩ | e
      · exact absurd e hne
      · rw [e]; simp
    · exact absurd (h.world.future k hk) hne
  · intro i job hj
    have hp := h.proc i job hj
    generalize hpc : s.pc i = pc at hp
    have hno : ∀ {P : Prop}, pc ≠ .start → pc ≠ .dirs → pc ≠ .locked → ¬ NotOpened (s.pc i) := by
      intro _ h1 h2 h3 hn
      rw [hpc] at hn
      rcases hn with e | e | e
      · exact h1 e
      · exact h2 e
      · exact h3 e
    unfold ProcOk at hp ⊢
    split at hp
    · exact ⟨.inl hpc, hp.2⟩
    · exact ⟨.inr (.inl hpc), hp.2⟩
    · exact ⟨.inr (.inr hpc), hp.2⟩
    · exact ⟨ho hp.1 (hno (P := True) (by simp) (by simp) (by simp)), hp.2⟩
    · exact hp
    · exact hp
    · exact .inl hpc
    · exact ⟨ho hp.1 (hno (P := True) (by simp) (by simp) (by simp)), hp.2⟩
    · have hn := hno (P := True) (by simp) (by simp) (by simp)
      rcases hp with hp | ⟨k, pre, h1, h2, _, h4⟩
      · exact .inl hp
      · exact .inr ⟨k, pre, ho h1 hn, h2, fun h => absurd h hn, h4⟩
    · trivial

theorem Inv.pieces {c : Text} {p : Past} {W : Log} {s : Sys} (h : Inv nd root jobs c p W s) : Pieces nd root jobs c W s := by
  refine ⟨h.log.adds, h.log.unique, h.log.batch, h.world.future, h.world.slot, ?_, ?_⟩
  · intro i res hj hpc
    have := h.proc i _ hj
    rw [hpc] at this
    rcases this with e | ⟨k, pre, ho, hp, _, e⟩
    · exact .inl e
    · exact .inr ⟨k, ho.1, pre, hp, e⟩
  · intro i cs hj hpc
    have := h.proc i _ hj
    rw [hpc] at this
    exact this

end Piece
end Unlink
end GC
