/-
Lemmas about sessions of commands.
-/
import Verif.Spec.History
import Verif.Props.Store
import Verif.Props.Random
namespace GC
namespace Store
open Text

theorem Untouched.refl (root : FPath) (fs : FS) : Untouched root fs fs := ⟨fun _ _ _ => .inl rfl, .inl rfl⟩

theorem Untouched.trans {root : FPath} {a b c : FS} (h1 : Untouched root a b) (h2 : Untouched root b c) : Untouched root a c := by
  refine ⟨fun q hq hq' => ?_, ?_⟩
  · rcases h1.1 q hq hq' with e1 | ⟨p1, n1, d1⟩
    · rcases h2.1 q hq hq' with e2 | ⟨p2, n2, d2⟩
      · exact .inl (e2.trans e1)
      · exact .inr ⟨p2, e1 ▸ n2, d2⟩
    · rcases h2.1 q hq hq' with e2 | ⟨p2, n2, d2⟩
      · exact .inr ⟨p1, n1, e2.trans d1⟩
      · rw [d1] at n2; cases n2
  · rcases h2.2 with e2 | e2
    · rw [e2]; exact h1.2
    · exact .inr e2

theorem Fresh.command {root : FPath} {fs : FS} (h : Fresh root fs) : fs (commandPath root) = none := h.2.1 _ (root_prefix_command root)

theorem prefix_root_ne_lock {root q : FPath} (h : q <+: root) : q ≠ lockPath root := by
  rintro rfl
  exact not_prefix_self_snoc root lockFile h

theorem prefix_graph {root q : FPath} (h : q <+: rootPath root) : q = rootPath root ∨ q <+: root := List.prefix_concat_iff.1 h

theorem prefix_graph_ne_lock {root q : FPath} (h : q <+: rootPath root) : q ≠ lockPath root := by
  rcases prefix_graph h with rfl | h
  · intro e
    exact lock_not_under_graph root (e ▸ List.prefix_refl _)
  · exact prefix_root_ne_lock h

theorem prefix_graph_ne_command {root q : FPath} (h : q <+: rootPath root) : q ≠ commandPath root := by
  rintro rfl
  have := h.length_le
  simp [rootPath, commandPath] at this

theorem Fresh.lockable {root : FPath} {fs : FS} (h : Fresh root fs) : Lockable root fs := ⟨h.1, h.2.2⟩

/-- Lock taken, everything below `.graph` absent, lock released. -/
theorem fresh_unlock {root : FPath} {fs fs1 fs2 : FS} (hd : DirPossible fs root) (h : LockedFrom root fs fs1)
    (hu : ∀ q, rootPath root <+: q → fs2 q = none) (ho : ∀ q, ¬ rootPath root <+: q → fs2 q = fs1 q) :
    Fresh root (fs2.set (lockPath root) none) ∧ Untouched root fs (fs2.set (lockPath root) none) := by
  refine ⟨⟨?_, ?_, by rw [FS.set_self]; simp⟩, ?_, .inr (FS.set_self _ _ _)⟩
  · rintro q hq ⟨c, hc⟩
    rw [FS.set_other _ _ (prefix_root_ne_lock hq), ho q (fun h => not_prefix_command h hq), h.2.1 q hq] at hc
    cases hc
  · intro q hq
    rw [FS.set_other _ _ (by rintro rfl; exact lock_not_under_graph root hq)]
    exact hu q hq
  · intro q hq hq'
    rw [FS.set_other _ _ hq, ho q hq']
    by_cases hr : q <+: root
    · rw [h.2.1 q hr]
      cases hn : fs q with
      | none => exact .inr ⟨hr, rfl, rfl⟩
      | some n =>
        cases n with
        | dir => exact .inl rfl
        | file c => exact absurd ⟨c, hn⟩ (hd q hr)
    · exact .inl (h.2.2 q hq hr)

theorem apply_fresh {root : FPath} {fs : FS} (h : Fresh root fs) (cs : List GraphCommand) :
    Fresh root (applyGraphCommands root cs fs).1 ∧ Untouched root fs (applyGraphCommands root cs fs).1 := by
  obtain ⟨fs1, h1, h2, _⟩ := withLock_ok (block := addCommandsTo (commandPath root) cs) h.lockable
  have hcmd : fs1 (commandPath root) = none := by rw [h1.content (root_prefix_command root)]; exact h.command
  have hblock : addCommandsTo (commandPath root) cs fs1 = (fs1, .error .notFound) := by
    unfold addCommandsTo openAppend
    rw [hcmd]
  rw [hblock] at h2
  unfold applyGraphCommands
  rw [h2 h1.1]
  exact fresh_unlock h.1 h1 (fun q hq => (h1.content hq).trans (h.2.1 q hq)) (fun _ _ => rfl)

theorem clean_fresh {root : FPath} {fs : FS} (h : Fresh root fs) :
    ∃ fs', clean root fs = (fs', .error .notFound) ∧ Fresh root fs' ∧ Untouched root fs fs' := by
  obtain ⟨fs1, h1, h2, _⟩ := withLock_ok (block := removeDirAll (rootPath root)) h.lockable
  have hdir : fs1 (rootPath root) = none := by rw [h1.content (List.prefix_refl _)]; exact h.2.1 _ (List.prefix_refl _)
  have hblock : removeDirAll (rootPath root) fs1 = (fs1, .error .notFound) := by
    unfold removeDirAll
    rw [hdir]
  rw [hblock] at h2
  exact ⟨_, h2 h1.1, fresh_unlock h.1 h1 (fun q hq => (h1.content hq).trans (h.2.1 q hq)) (fun _ _ => rfl)⟩

theorem clean_ready {root : FPath} {fs : FS} (h : Ready root fs) :
    ∃ fs', clean root fs = (fs', .ok ()) ∧ Fresh root fs' ∧ Untouched root fs fs' := by
  obtain ⟨fs1, h1, h2, _⟩ := withLock_ok (block := removeDirAll (rootPath root)) h.lockable
  have hdir : fs1 (rootPath root) = some .dir := by rw [h1.content (List.prefix_refl _)]; exact h.1 _ (List.prefix_refl _)
  have hblock : removeDirAll (rootPath root) fs1 =
      ((fun q => if (rootPath root).isPrefixOf q then none else fs1 q), .ok ()) := by
    unfold removeDirAll
    rw [hdir]
  rw [hblock] at h2
  have hnl : ¬ (rootPath root).isPrefixOf (lockPath root) = true := by
    rw [isPrefixOf_iff]; exact lock_not_under_graph root
  have h3 := h2 (by
    obtain ⟨c, hc⟩ := h1.1
    exact ⟨c, by simp only; rw [if_neg hnl]; exact hc⟩)
  refine ⟨_, h3, fresh_unlock h.lockable.1 h1 ?_ ?_⟩
  · intro q hq
    exact if_pos (isPrefixOf_iff.2 hq)
  · intro q hq
    exact if_neg (by rw [isPrefixOf_iff]; exact hq)

theorem init_fresh {root : FPath} {fs : FS} (h : Fresh root fs) :
    ∃ fs', init root fs = (fs', .ok ()) ∧ Ready root fs' ∧ Content root fs' [] ∧ Untouched root fs fs' := by
  have hcp : commandPath root = rootPath root ++ [commandsFile] := rfl
  have hd : DirPossible fs (rootPath root) := by
    rintro q hq ⟨c, hc⟩
    rcases prefix_graph hq with rfl | hq
    · rw [h.2.1 _ (List.prefix_refl _)] at hc; cases hc
    · exact h.1 q hq ⟨c, hc⟩
  have hcont : Content root (touched (rootPath root) commandsFile fs) [] := by
    unfold Content touched
    rw [if_pos hcp, h.command]
  have hlk : touched (rootPath root) commandsFile fs (lockPath root) = fs (lockPath root) := by
    refine touched_other (lock_ne_command root).symm ?_
    intro hp
    exact prefix_graph_ne_lock hp rfl
  refine ⟨touched (rootPath root) commandsFile fs, ?_, ⟨fun q hq => touched_prefix hq, ⟨_, hcont⟩, by rw [hlk]; exact h.2.2⟩, hcont, ?_,
    .inl hlk⟩
  · unfold init
    rw [hcp]
    exact touch_ok hd (by rw [← hcp, h.command]; simp)
  · intro q hq hq'
    by_cases hp : q <+: rootPath root
    · rcases prefix_graph hp with rfl | hr
      · exact absurd (List.prefix_refl _) hq'
      · rw [touched_prefix hp]
        cases hn : fs q with
        | none => exact .inr ⟨hr, rfl, rfl⟩
        | some n =>
          cases n with
          | dir => exact .inl rfl
          | file c => exact absurd ⟨c, hn⟩ (h.1 q hr)
    · exact .inl (touched_other (by rintro rfl; exact hq' (root_prefix_command root)) hp)

theorem init_ready {root : FPath} {fs : FS} (h : Ready root fs) : init root fs = (fs, .ok ()) := by
  have hcp : commandPath root = rootPath root ++ [commandsFile] := rfl
  obtain ⟨c, hc⟩ := h.2.1
  have hd : DirPossible fs (rootPath root) := by
    rintro q hq ⟨d, hd⟩
    rw [h.1 q hq] at hd
    cases hd
  unfold init
  rw [hcp, touch_ok hd (by rw [← hcp, hc]; simp)]
  refine congrArg (·, Except.ok ()) (funext fun q => ?_)
  unfold touched
  split
  · rename_i e
    rw [e, ← hcp, hc]
  · split
    · rename_i hp; exact (h.1 q (isPrefixOf_iff.1 hp)).symm
    · rfl

theorem save_ready {root : FPath} {fs : FS} (h : Ready root fs) (g : DirectedGraph) :
    ∃ fs', saveGraphAsCommands root g fs = (fs', .ok ()) ∧ Ready root fs' ∧ Content root fs' (Format.Gcmd.save g) ∧
      Untouched root fs fs' := by
  obtain ⟨c, hc⟩ := h.2.1
  have hval : ∀ q, q ≠ commandPath root →
      ((fs.set (commandPath root) (some (.file []))).set (commandPath root) (some (.file (Format.Gcmd.save g)))) q = fs q := by
    intro q hq
    rw [FS.set_other _ _ hq, FS.set_other _ _ hq]
  refine ⟨(fs.set (commandPath root) (some (.file []))).set (commandPath root) (some (.file (Format.Gcmd.save g))), ?_,
    ⟨?_, ⟨_, FS.set_self _ _ _⟩, ?_⟩, FS.set_self _ _ _, ?_, ?_⟩
  · unfold saveGraphAsCommands createTruncate
    rw [hc]
    simp [appendText, FS.set_self]
  · intro q hq
    rw [hval q (prefix_graph_ne_command hq)]
    exact h.1 q hq
  · rw [hval _ (lock_ne_command root).symm]
    exact h.2.2
  · intro q _ hq'
    exact .inl (hval q (by rintro rfl; exact hq' (root_prefix_command root)))
  · exact .inl (hval _ (lock_ne_command root).symm)

theorem apply_ready_untouched {root : FPath} {fs : FS} (h : Ready root fs) (cs : List GraphCommand) :
    Untouched root fs (applyGraphCommands root cs fs).1 := by
  obtain ⟨c, hc⟩ := h.content
  obtain ⟨fs', h1, _, _, h4, h5⟩ := applyGraphCommands_ready h hc cs
  rw [h1]
  refine ⟨fun q hq hq' => .inl (h5 q hq (by rintro rfl; exact hq' (root_prefix_command root))), .inr h4⟩

/-! ### gc-add and gc-delete, step by step -/

theorem mutateStep_induct {root : FPath} {P : FS → Prop} (hP : ∀ fs cs, P fs → P (applyGraphCommands root cs fs).1)
    (o : Option (List Text)) (mk : List VertexId → Run (List GraphCommand)) {fs : FS} (h : P fs) : P (mutateStep root o mk fs).1 := by
  unfold mutateStep
  split
  · exact h
  · split
    · exact hP _ _ h
    · exact h

theorem andThen_induct {P : FS → Prop} {r : FS × Exit} {f : FS → FS × Exit} (h : P r.1) (hf : ∀ fs, P fs → P (f fs).1) :
    P (andThen r f).1 := by
  obtain ⟨fs, e⟩ := r
  cases e
  · exact hf fs h
  · exact h

theorem gcAdd_induct {root : FPath} {P : FS → Prop} (hP : ∀ fs cs, P fs → P (applyGraphCommands root cs fs).1) (a : AddArgs) {fs : FS}
    (h : P fs) : P (gcAdd root a fs).1 := by
  unfold gcAdd
  refine andThen_induct (mutateStep_induct hP _ _ h) fun fs h => ?_
  refine andThen_induct (mutateStep_induct hP _ _ h) fun fs h => ?_
  refine andThen_induct (mutateStep_induct hP _ _ h) fun fs h => ?_
  refine andThen_induct (mutateStep_induct hP _ _ h) fun fs h => ?_
  refine andThen_induct (mutateStep_induct hP _ _ h) fun fs h => ?_
  exact mutateStep_induct hP _ _ h

theorem gcDelete_induct {root : FPath} {P : FS → Prop} (hP : ∀ fs cs, P fs → P (applyGraphCommands root cs fs).1)
    (v e : Option (List Text)) {fs : FS} (h : P fs) : P (gcDelete root v e fs).1 := by
  unfold gcDelete
  exact andThen_induct (mutateStep_induct hP _ _ h) fun fs h => mutateStep_induct hP _ _ h

theorem first_six (a : AddArgs) : a.first 6 = a := by
  cases a
  simp [AddArgs.first]

/-- gc-add carries out the options before the first invalid one. -/
theorem gcAdd_first (root : FPath) (a : AddArgs) (fs : FS) :
    ∃ n, a.CarriedOut n ∧ (gcAdd root a fs).1 = (gcAdd root (a.first n) fs).1 ∧
      ((gcAdd root a fs).2 = .success ↔ n = 6) := by
  have key : ∀ n, n < 6 → (gcAdd root (a.first n) fs).2 = .success → (gcAdd root (a.first (n + 1)) fs).2 = .panic →
      a.CarriedOut n := by
    intro n hn h1 h2
    refine ⟨(C65_add_exit_code root _ fs).1 h1, .inr ⟨hn, fun h => ?_⟩⟩
    rw [(C65_add_exit_code root _ fs).2 h] at h2
    cases h2
  have none_step : ∀ mk fs, mutateStep root none mk fs = (fs, .success) := fun _ _ => rfl
  have as : ∀ (fs : FS) (f : FS → FS × Exit), andThen (fs, .success) f = f fs := fun _ _ => rfl
  have ap : ∀ (fs : FS) (f : FS → FS × Exit), andThen (fs, .panic) f = (fs, .panic) := fun _ _ => rfl
  have pan : ∀ {o mk fs fs'}, mutateStep root o mk fs = (fs', .panic) → fs' = fs := by
    intro o mk fs fs' h
    have := mutateStep_panic (root := root) (vals := o) (mk := mk) (fs := fs) (by rw [h])
    rw [h] at this
    exact this
  rcases h1 : mutateStep root a.vertex (fun vs => .done (vs.map .AddVertex)) fs with ⟨fs1, _ | _⟩
  case panic =>
    have e := pan h1
    subst e
    refine ⟨0, key 0 (by omega) ?_ ?_, ?_, ?_⟩ <;> simp [gcAdd, AddArgs.first, none_step, as, ap, h1]
  rcases h2 : mutateStep root a.edge (mkEdges a.reverse) fs1 with ⟨fs2, _ | _⟩
  case panic =>
    have e := pan h2
    subst e
    refine ⟨1, key 1 (by omega) ?_ ?_, ?_, ?_⟩ <;> simp [gcAdd, AddArgs.first, none_step, as, ap, h1, h2]
  rcases h3 : mutateStep root a.chain (mkChain a.reverse) fs2 with ⟨fs3, _ | _⟩
  case panic =>
    have e := pan h3
    subst e
    refine ⟨2, key 2 (by omega) ?_ ?_, ?_, ?_⟩ <;> simp [gcAdd, AddArgs.first, none_step, as, ap, h1, h2, h3]
  rcases h4 : mutateStep root a.cycle (mkCycle a.reverse) fs3 with ⟨fs4, _ | _⟩
  case panic =>
    have e := pan h4
    subst e
    refine ⟨3, key 3 (by omega) ?_ ?_, ?_, ?_⟩ <;> simp [gcAdd, AddArgs.first, none_step, as, ap, h1, h2, h3, h4]
  rcases h5 : mutateStep root a.star (mkStar a.reverse) fs4 with ⟨fs5, _ | _⟩
  case panic =>
    have e := pan h5
    subst e
    refine ⟨4, key 4 (by omega) ?_ ?_, ?_, ?_⟩ <;> simp [gcAdd, AddArgs.first, none_step, as, ap, h1, h2, h3, h4, h5]
  rcases h6 : mutateStep root a.clique mkClique fs5 with ⟨fs6, _ | _⟩
  case panic =>
    have e := pan h6
    subst e
    refine ⟨5, key 5 (by omega) ?_ ?_, ?_, ?_⟩ <;> simp [gcAdd, AddArgs.first, none_step, as, ap, h1, h2, h3, h4, h5, h6]
  have hs : (gcAdd root a fs).2 = .success := by simp [gcAdd, as, h1, h2, h3, h4, h5, h6]
  refine ⟨6, ⟨?_, .inl rfl⟩, by rw [first_six], by simp [hs]⟩
  rw [first_six]
  exact (C65_add_exit_code root a fs).1 hs

theorem validAdd_first_iff {a : AddArgs} {n : Nat} : ValidAdd (a.first n) ↔
    (1 ≤ n → ∀ l, a.vertex = some l → ∃ vs, ArgIds l vs) ∧ (2 ≤ n → ∀ l, a.edge = some l → ∃ vs, ArgIds l vs ∧ vs.length % 2 = 0) ∧
    (3 ≤ n → ∀ l, a.chain = some l → ∃ vs, ArgIds l vs ∧ vs ≠ []) ∧ (4 ≤ n → ∀ l, a.cycle = some l → ∃ vs, ArgIds l vs ∧ vs ≠ []) ∧
    (5 ≤ n → ∀ l, a.star = some l → ∃ vs, ArgIds l vs) ∧ (6 ≤ n → ∀ l, a.clique = some l → ∃ vs, ArgIds l vs) := by
  have h : ∀ (p : Prop) [Decidable p] (o : Option (List Text)) (Q : List Text → Prop),
      (∀ l, (if p then o else none) = some l → Q l) ↔ (p → ∀ l, o = some l → Q l) := by
    intro p _ o Q
    by_cases hp : p <;> simp [hp]
  unfold ValidAdd AddArgs.first
  dsimp only
  rw [h, h, h, h, h, h]

theorem validAdd_first_mono {a : AddArgs} {m n : Nat} (hmn : m ≤ n) (h : ValidAdd (a.first n)) : ValidAdd (a.first m) := by
  rw [validAdd_first_iff] at h ⊢
  exact ⟨fun k => h.1 (by omega), fun k => h.2.1 (by omega), fun k => h.2.2.1 (by omega), fun k => h.2.2.2.1 (by omega),
    fun k => h.2.2.2.2.1 (by omega), fun k => h.2.2.2.2.2 (by omega)⟩

theorem CarriedOut.unique {a : AddArgs} {m n : Nat} (hm : a.CarriedOut m) (hn : a.CarriedOut n) : m = n := by
  have key : ∀ {m n : Nat}, a.CarriedOut m → a.CarriedOut n → ¬ m < n := by
    intro m n hm hn hlt
    rcases hm.2 with rfl | ⟨_, h⟩
    · rcases hn.2 with rfl | ⟨h, _⟩ <;> omega
    · exact h (validAdd_first_mono hlt hn.1)
  have := key hm hn
  have := key hn hm
  omega

theorem CarriedOut.six {a : AddArgs} {n : Nat} (h : a.CarriedOut n) : n = 6 ↔ ValidAdd a := by
  constructor
  · rintro rfl
    have := h.1
    rwa [first_six] at this
  · intro hv
    refine CarriedOut.unique h ⟨?_, .inl rfl⟩
    rwa [first_six]

/-- Parsing of the options of gc-delete. -/
theorem delete_vertex_success {root : FPath} {o : Option (List Text)} {fs : FS} :
    (mutateStep root o (fun vs => .done (vs.map .RemoveVertex)) fs).2 = .success ↔ ValidIds o := by
  rw [mutateStep_success]
  unfold ValidIds StepCommands Given
  cases o with
  | none => exact ⟨fun _ l h => (by cases h), fun _ => ⟨[], .inl ⟨rfl, rfl⟩⟩⟩
  | some l =>
    constructor
    · rintro ⟨cs, ⟨h, _⟩ | ⟨vs, ⟨l', h, hl⟩, _⟩⟩ l2 h2
      · cases h
      · cases h; cases h2; exact ⟨vs, hl⟩
    · intro h
      obtain ⟨vs, hl⟩ := h l rfl
      exact ⟨_, .inr ⟨vs, ⟨l, rfl, hl⟩, rfl⟩⟩

theorem delete_edge_success {root : FPath} {o : Option (List Text)} {fs : FS} :
    (mutateStep root o mkRemoveEdges fs).2 = .success ↔ ValidPairs o := by
  have q2 : ∀ vs, (∃ cs, mkRemoveEdges vs = .done cs) ↔ vs.length % 2 = 0 := by
    intro vs
    unfold mkRemoveEdges Args.asVertexTuple
    by_cases h : vs.length % 2 = 0
    · simp [h, Run.unwrap, Run.bind]
    · simp [h, Run.unwrap, Run.bind]
  rw [mutateStep_success]
  unfold ValidPairs StepCommands Given
  cases o with
  | none => exact ⟨fun _ l h => (by cases h), fun _ => ⟨[], .inl ⟨rfl, rfl⟩⟩⟩
  | some l =>
    constructor
    · rintro ⟨cs, ⟨h, _⟩ | ⟨vs, ⟨l', h, hl⟩, hm⟩⟩ l2 h2
      · cases h
      · cases h; cases h2; exact ⟨vs, hl, (q2 vs).1 ⟨cs, hm⟩⟩
    · intro h
      obtain ⟨vs, hl, he⟩ := h l rfl
      obtain ⟨cs, hm⟩ := (q2 vs).2 he
      exact ⟨cs, .inr ⟨vs, ⟨l, rfl, hl⟩, hm⟩⟩

/-! ### One command -/

theorem holds_stored {nd : Char → Bool} {root : FPath} {fs : FS} {S : Option SetGraph} (h : Holds nd root fs S) : Stored nd root fs S := by
  cases S with
  | none =>
    have h : Fresh root fs := h
    unfold Stored loadGraph
    rw [h.command]
  | some G =>
    obtain ⟨_, c, g, hc, _, hr, hG⟩ := h
    exact ⟨g, (loadGraph_content hc).2 hr, hG⟩

theorem Content.unique {root : FPath} {fs : FS} {c d : Text} (h : Content root fs c) (h' : Content root fs d) : c = d := by
  unfold Content at h h'
  rw [h] at h'
  cases h'
  rfl

/-- Appending commands keeps a graph stored. -/
theorem holds_apply {nd : Char → Bool} {root : FPath} {fs : FS} (cs : List GraphCommand) (h : ∃ G, Holds nd root fs (some G)) :
    ∃ G, Holds nd root (applyGraphCommands root cs fs).1 (some G) := by
  obtain ⟨G, hr, c, g, hc, ht, hg, hG⟩ := h
  obtain ⟨fs', h1, h2, h3, _⟩ := applyGraphCommands_ready hr hc cs
  rw [h1]
  exact ⟨_, h3, _, _, h2, newlineTerminated_append ht (terminated_commandsText cs), C14_append_applies nd c g cs ht hg, rfl⟩

theorem stored_unique {nd : Char → Bool} {root : FPath} {fs : FS} {S T : Option SetGraph} (h : Stored nd root fs S)
    (h' : Stored nd root fs T) : S = T := by
  cases S with
  | none =>
    cases T with
    | none => rfl
    | some G =>
      obtain ⟨g, hg, _⟩ := h'
      unfold Stored at h
      rw [hg] at h
      cases h
  | some G =>
    obtain ⟨g, hg, rfl⟩ := h
    cases T with
    | none =>
      unfold Stored at h'
      rw [hg] at h'
      cases h'
    | some G' =>
      obtain ⟨g', hg', rfl⟩ := h'
      rw [hg] at hg'
      cases hg'
      rfl

/-- The states reached from a state with stored graph by appending commands. -/
theorem holds_of_load {nd : Char → Bool} {root : FPath} {fs : FS} {G : SetGraph} (h : ∃ G, Holds nd root fs (some G))
    (hs : Stored nd root fs (some G)) : Holds nd root fs (some G) := by
  obtain ⟨G', h⟩ := h
  have := stored_unique (holds_stored h) hs
  cases this
  exact h

theorem add_effect {nd : Char → Bool} {root : FPath} {fs : FS} {S : Option SetGraph} (a : AddArgs) (h : Holds nd root fs S) :
    ∃ S', Effect (.add a) S S' (gcAdd root a fs).2 ∧ Holds nd root (gcAdd root a fs).1 S' ∧ Untouched root fs (gcAdd root a fs).1 := by
  cases S with
  | none =>
    have hx := gcAdd_induct (root := root) (P := fun fs' => Fresh root fs' ∧ Untouched root fs fs')
      (fun fs' cs hp => ⟨(apply_fresh hp.1 cs).1, hp.2.trans (apply_fresh hp.1 cs).2⟩) a ⟨h, Untouched.refl root fs⟩
    refine ⟨none, ?_, hx.1, hx.2⟩
    cases he : (gcAdd root a fs).2 with
    | success => exact .add_lost ((C65_add_exit_code root a fs).1 he)
    | panic =>
      refine .add_lost_fails fun hv => ?_
      rw [(C65_add_exit_code root a fs).2 hv] at he
      cases he
  | some G =>
    obtain ⟨n, hn, h1, h2⟩ := gcAdd_first root a fs
    have hx := gcAdd_induct (root := root) (P := fun fs' => (∃ G, Holds nd root fs' (some G)) ∧ Untouched root fs fs')
      (fun fs' cs hp => ⟨holds_apply cs hp.1, hp.2.trans (apply_ready_untouched hp.1.choose_spec.1 cs)⟩) a
      ⟨⟨G, h⟩, Untouched.refl root fs⟩
    obtain ⟨hr, c, g, hc, ht, hg, hG⟩ := h
    have hs : (gcAdd root (a.first n) fs).2 = .success := (C65_add_exit_code root _ fs).2 hn.1
    obtain ⟨g', hg', hE, hV, _⟩ := C57_gc_add_effect nd root (a.first n) fs c g hr hc ht ((loadGraph_content hc).2 hg) hs
    have hset : g'.toSet = G.added (a.first n) := by
      subst hG
      exact SetGraph.ext' hV hE
    have hst : Stored nd root (gcAdd root a fs).1 (some (G.added (a.first n))) := by
      rw [h1]
      exact ⟨g', hg', hset⟩
    refine ⟨some (G.added (a.first n)), ?_, holds_of_load hx.1 hst, hx.2⟩
    by_cases h6 : n = 6
    · subst h6
      rw [h2.2 rfl, first_six]
      exact .add hn rfl
    · have hp : (gcAdd root a fs).2 = .panic := by
        cases he : (gcAdd root a fs).2 with
        | success => exact absurd (h2.1 he) h6
        | panic => rfl
      rw [hp]
      refine .add_fails hn ?_
      rcases hn.2 with h | ⟨h, _⟩
      · exact absurd h h6
      · exact h

theorem given_of_valid {o : Option (List Text)} (h : ValidIds o) : ∃ vs, o = none ∧ vs = [] ∨ Given o vs := by
  cases o with
  | none => exact ⟨[], .inl ⟨rfl, rfl⟩⟩
  | some l =>
    obtain ⟨vs, hl⟩ := h l rfl
    exact ⟨vs, .inr ⟨l, rfl, hl⟩⟩

theorem given_of_pairs {o : Option (List Text)} (h : ValidPairs o) : ∃ vs, (o = none ∧ vs = [] ∨ Given o vs) ∧ vs.length % 2 = 0 := by
  cases o with
  | none => exact ⟨[], .inl ⟨rfl, rfl⟩, rfl⟩
  | some l =>
    obtain ⟨vs, hl, he⟩ := h l rfl
    exact ⟨vs, .inr ⟨l, rfl, hl⟩, he⟩

theorem forall_given {o : Option (List Text)} {vs : List VertexId} (h : o = none ∧ vs = [] ∨ Given o vs) {P : List VertexId → Prop}
    (h0 : P []) : (∀ ws, Given o ws → P ws) ↔ P vs := by
  rcases h with ⟨rfl, rfl⟩ | h
  · exact ⟨fun _ => h0, fun _ ws hw => by obtain ⟨l, hl, _⟩ := hw; cases hl⟩
  · exact ⟨fun hp => hp vs h, fun hp ws hw => by rwa [hw.unique h]⟩

/-- The exit code of gc-delete. -/
theorem delete_success {root : FPath} {v e : Option (List Text)} {fs : FS} :
    (gcDelete root v e fs).2 = .success ↔ ValidIds v ∧ ValidPairs e := by
  unfold gcDelete
  rw [andThen_success, delete_vertex_success, delete_edge_success]

theorem delete_effect {nd : Char → Bool} {root : FPath} {fs : FS} {S : Option SetGraph} (v e : Option (List Text))
    (h : Holds nd root fs S) :
    ∃ S', Effect (.delete v e) S S' (gcDelete root v e fs).2 ∧ Holds nd root (gcDelete root v e fs).1 S' ∧
      Untouched root fs (gcDelete root v e fs).1 := by
  cases S with
  | none =>
    have hx := gcDelete_induct (root := root) (P := fun fs' => Fresh root fs' ∧ Untouched root fs fs')
      (fun fs' cs hp => ⟨(apply_fresh hp.1 cs).1, hp.2.trans (apply_fresh hp.1 cs).2⟩) v e ⟨h, Untouched.refl root fs⟩
    refine ⟨none, ?_, hx.1, hx.2⟩
    cases he : (gcDelete root v e fs).2 with
    | success =>
      have := delete_success.1 he
      exact .delete_lost this.1 this.2
    | panic =>
      refine .delete_lost_fails fun hv => ?_
      rw [delete_success.2 hv] at he
      cases he
  | some G =>
    have hx := gcDelete_induct (root := root) (P := fun fs' => (∃ G, Holds nd root fs' (some G)) ∧ Untouched root fs fs')
      (fun fs' cs hp => ⟨holds_apply cs hp.1, hp.2.trans (apply_ready_untouched hp.1.choose_spec.1 cs)⟩) v e
      ⟨⟨G, h⟩, Untouched.refl root fs⟩
    have core : ∀ e' es, (gcDelete root v e' fs).2 = .success → ∀ vs, (v = none ∧ vs = [] ∨ Given v vs) →
        (e' = none ∧ es = [] ∨ Given e' es) →
        Stored nd root (gcDelete root v e' fs).1 (some ((G.withoutVertices vs).withoutPairs es)) := by
      intro e' es hs vs hvs hes
      obtain ⟨hr, c, g, hc, ht, hg, hG⟩ := h
      obtain ⟨g', hg', hV, hE, _⟩ := C69_gc_delete_effect nd root v e' fs c g hr hc ht ((loadGraph_content hc).2 hg) hs
      refine ⟨g', hg', ?_⟩
      subst hG
      apply SetGraph.ext'
      · intro u
        refine (hV u).trans ?_
        rw [forall_given hvs (P := fun vs => u ∉ vs) (by simp)]
        rfl
      · intro ed
        refine (hE ed).trans ?_
        rw [forall_given hvs (P := fun vs => ed.src ∉ vs ∧ ed.dst ∉ vs) (by simp),
          forall_given hes (P := fun vs => ∀ k, ¬ (vs[2 * k]? = some ed.src ∧ vs[2 * k + 1]? = some ed.dst)) (by simp), ← and_assoc]
        rfl
    by_cases hv : ValidIds v
    · obtain ⟨vs, hvs⟩ := given_of_valid hv
      by_cases he : ValidPairs e
      · obtain ⟨es, hes, hl⟩ := given_of_pairs he
        have hs := (delete_success (root := root) (fs := fs)).2 ⟨hv, he⟩
        refine ⟨_, ?_, holds_of_load hx.1 (core e es hs vs hvs hes), hx.2⟩
        rw [hs]
        exact .delete hvs hes hl
      · have h0 : ValidPairs none := by intro l hl; cases hl
        have hs := (delete_success (root := root) (fs := fs)).2 ⟨hv, h0⟩
        have hst := core none [] hs vs hvs (.inl ⟨rfl, rfl⟩)
        have hsame : gcDelete root v e fs = ((gcDelete root v none fs).1, .panic) := by
          have h1 : (mutateStep root v (fun vs => .done (vs.map .RemoveVertex)) fs).2 = .success := delete_vertex_success.2 hv
          unfold gcDelete
          rw [andThen_of_success h1, andThen_of_success h1]
          generalize (mutateStep root v _ fs).1 = fs1
          have h2 : (mutateStep root e mkRemoveEdges fs1).2 = .panic := by
            cases hh : (mutateStep root e mkRemoveEdges fs1).2 with
            | success => exact absurd (delete_edge_success.1 hh) he
            | panic => rfl
          exact Prod.ext (mutateStep_panic h2) h2
        have hp : (G.withoutVertices vs).withoutPairs [] = G.withoutVertices vs := by
          apply SetGraph.ext'
          · intro u; rfl
          · intro ed; simp [SetGraph.withoutPairs]
        rw [hp] at hst
        refine ⟨_, ?_, holds_of_load hx.1 (by rw [hsame]; exact hst), hx.2⟩
        rw [hsame]
        exact .delete_fails_edges hvs he
    · have h1 : (mutateStep root v (fun vs => .done (vs.map .RemoveVertex)) fs).2 = .panic := by
        cases hh : (mutateStep root v (fun vs => .done (vs.map .RemoveVertex)) fs).2 with
        | success => exact absurd (delete_vertex_success.1 hh) hv
        | panic => rfl
      have hsame : gcDelete root v e fs = (fs, .panic) := by
        unfold gcDelete
        have : mutateStep root v (fun vs => .done (vs.map .RemoveVertex)) fs = (fs, .panic) := Prod.ext (mutateStep_panic h1) h1
        rw [this]
        rfl
      rw [hsame]
      exact ⟨some G, .delete_fails hv, h, Untouched.refl root fs⟩

theorem saysYes_iff {answer : Text} : Args.confirmationYesNo answer = true ↔ SaysYes answer := C58_confirmation answer

/-- A saved graph is stored. -/
theorem holds_save {nd : Char → Bool} {root : FPath} {fs : FS} {g : DirectedGraph} {order : DirectedGraph → DirectedGraph} (ho : IsOrder order)
    (hb : Built g) (hr : Ready root fs) (hc : Content root fs (Format.Gcmd.save (order g))) : Holds nd root fs (some g.toSet) := by
  obtain ⟨g', h1, _, h3⟩ := C09_gcmd_round_trip nd (order g) (hb.reorder (ho g))
  refine ⟨hr, _, g', hc, (C14_saved_files_terminated _).1, h1, ?_⟩
  rw [sameGraph_iff.1 h3]
  exact toSet_perm hb.wf (ho g)

theorem exec_effect {nd : Char → Bool} {root : FPath} {fs : FS} {S : Option SetGraph} (cmd : Cmd) (hp : cmd.Proper)
    (h : Holds nd root fs S) :
    ∃ S', Effect cmd S S' (exec nd root cmd fs).2 ∧ Holds nd root (exec nd root cmd fs).1 S' ∧
      Untouched root fs (exec nd root cmd fs).1 := by
  cases cmd with
  | init =>
    cases S with
    | none =>
      obtain ⟨fs', h1, h2, h3, h4⟩ := init_fresh h
      have e : exec nd root .init fs = (fs', .success) := by
        show expectOk (init root fs) = _
        rw [h1]; rfl
      rw [e]
      exact ⟨_, .init_new, ⟨h2, [], .new, h3, .inl rfl, rfl, toSet_new⟩, h4⟩
    | some G =>
      have e : exec nd root .init fs = (fs, .success) := by
        show expectOk (init root fs) = _
        rw [init_ready h.1]; rfl
      rw [e]
      exact ⟨_, .init_again, h, Untouched.refl _ _⟩
  | add a => exact add_effect a h
  | delete v e => exact delete_effect v e h
  | build order =>
    cases S with
    | none =>
      have e : exec nd root (.build order) fs = (fs, .panic) := by
        apply C17_build_fails_safely
        intro g hg
        have h' : loadGraph nd root fs = _ := holds_stored h
        rw [hg] at h'
        cases h'
      rw [e]
      exact ⟨_, .build_fails, h, Untouched.refl _ _⟩
    | some G =>
      obtain ⟨hr, c, g, hc, ht, hg, rfl⟩ := h
      obtain ⟨fs', h1, h2, h3, h4⟩ := save_ready hr (order g)
      have hl := (loadGraph_content hc).2 hg
      have e : exec nd root (.build order) fs = (fs', .success) := by
        show gcBuild nd order root fs = _
        unfold gcBuild
        rw [hl]
        dsimp only
        rw [h1]
        rfl
      rw [e]
      exact ⟨_, .build, holds_save hp (loadGraph_built hl).1 h2 h3, h4⟩
  | clean force answer =>
    by_cases hy : force = true ∨ SaysYes answer
    · have e : exec nd root (.clean force answer) fs = expectOk (clean root fs) := by
        show gcClean root force answer fs = _
        unfold gcClean
        rw [if_neg]
        rcases hy with h | h
        · simp [h]
        · simp [saysYes_iff.2 h]
      rw [e]
      cases S with
      | none =>
        obtain ⟨fs', h1, h2, h3⟩ := clean_fresh h
        rw [h1]
        exact ⟨none, .clean_fails hy, h2, h3⟩
      | some G =>
        obtain ⟨fs', h1, h2, h3⟩ := clean_ready h.1
        rw [h1]
        exact ⟨none, .clean hy, h2, h3⟩
    · rw [not_or] at hy
      obtain ⟨hf, hy⟩ := hy
      have hf : force = false := by simpa using hf
      subst hf
      have hno : Args.confirmationYesNo answer = false := by
        rw [← Bool.not_eq_true, saysYes_iff]; exact hy
      have e : exec nd root (.clean false answer) fs = (fs, .success) := C64_clean_not_confirmed root answer fs hno
      rw [e]
      exact ⟨S, .clean_refused hy, h, Untouched.refl _ _⟩
  | random g order force answer =>
    by_cases hy : force = true ∨ SaysYes answer
    · have e : exec nd root (.random g order force answer) fs = Random.replaceGraph root (order g) fs := by
        show Random.finish order root force answer fs (some g) = _
        unfold Random.finish
        dsimp only
        rw [if_neg]
        rcases hy with h | h
        · simp [h]
        · simp [saysYes_iff.2 h]
      rw [e]
      unfold Random.replaceGraph
      cases S with
      | none =>
        obtain ⟨fs', h1, h2, h3⟩ := clean_fresh h
        rw [h1]
        exact ⟨none, .random_fails hy, h2, h3⟩
      | some G =>
        obtain ⟨fs1, h1, h2, h3⟩ := clean_ready h.1
        rw [h1]
        obtain ⟨fs2, i1, i2, _, i4⟩ := init_fresh h2
        simp only [expectOk, andThen]
        rw [i1]
        obtain ⟨fs3, s1, s2, s3, s4⟩ := save_ready i2 (order g)
        dsimp only
        rw [s1]
        exact ⟨some g.toSet, .random hy, holds_save hp.2 hp.1 s2 s3, (h3.trans i4).trans s4⟩
    · rw [not_or] at hy
      obtain ⟨hf, hy⟩ := hy
      have hf : force = false := by simpa using hf
      subst hf
      have hno : Args.confirmationYesNo answer = false := by
        rw [← Bool.not_eq_true, saysYes_iff]; exact hy
      have e : exec nd root (.random g order false answer) fs = (fs, .success) := by
        show Random.finish order root false answer fs (some g) = _
        unfold Random.finish
        simp [hno]
      rw [e]
      exact ⟨S, .random_refused hy, h, Untouched.refl _ _⟩

theorem session_history {nd : Char → Bool} {root : FPath} (cmds : List Cmd) (hp : ∀ cmd ∈ cmds, cmd.Proper) {fs : FS}
    {S : Option SetGraph} (h : Holds nd root fs S) :
    ∃ S', History cmds S S' (session nd root cmds fs).2 ∧ Holds nd root (session nd root cmds fs).1 S' ∧
      Untouched root fs (session nd root cmds fs).1 := by
  induction cmds generalizing fs S with
  | nil => exact ⟨S, .nil, h, Untouched.refl _ _⟩
  | cons cmd cmds ih =>
    obtain ⟨S1, e1, h1, u1⟩ := exec_effect cmd (hp cmd (by simp)) h
    obtain ⟨S2, e2, h2, u2⟩ := ih (fun c hc => hp c (by simp [hc])) h1
    exact ⟨S2, .cons e1 e2, h2, u1.trans u2⟩

theorem given_or_unique {o : Option (List Text)} {vs ws : List VertexId} (h1 : o = none ∧ vs = [] ∨ Given o vs)
    (h2 : o = none ∧ ws = [] ∨ Given o ws) : vs = ws := by
  rcases h1 with ⟨rfl, rfl⟩ | h1
  · rcases h2 with ⟨_, rfl⟩ | ⟨l, hl, _⟩
    · rfl
    · cases hl
  · rcases h2 with ⟨rfl, rfl⟩ | h2
    · obtain ⟨l, hl, _⟩ := h1; cases hl
    · exact h1.unique h2

theorem valid_of_given {o : Option (List Text)} {vs : List VertexId} (h : o = none ∧ vs = [] ∨ Given o vs) : ValidIds o := by
  intro l hl
  rcases h with ⟨rfl, _⟩ | ⟨l', h, ha⟩
  · cases hl
  · rw [hl] at h; cases h; exact ⟨vs, ha⟩

theorem pairs_of_given {o : Option (List Text)} {vs : List VertexId} (h : o = none ∧ vs = [] ∨ Given o vs) (he : vs.length % 2 = 0) :
    ValidPairs o := by
  intro l hl
  rcases h with ⟨rfl, _⟩ | ⟨l', h, ha⟩
  · cases hl
  · rw [hl] at h; cases h; exact ⟨vs, ha, he⟩

theorem effect_unique {cmd : Cmd} {S S1 S2 : Option SetGraph} {e1 e2 : Exit} (h1 : Effect cmd S S1 e1) (h2 : Effect cmd S S2 e2) :
    S1 = S2 ∧ e1 = e2 := by
  cases h1 with
  | init_new => cases h2; exact ⟨rfl, rfl⟩
  | init_again => cases h2; exact ⟨rfl, rfl⟩
  | add c1 n1 =>
    cases h2 with
    | add => exact ⟨rfl, rfl⟩
    | add_fails c2 n2 => have := CarriedOut.unique c1 c2; omega
  | add_fails c1 n1 =>
    cases h2 with
    | add c2 n2 => have := CarriedOut.unique c1 c2; omega
    | add_fails c2 n2 => rw [CarriedOut.unique c1 c2]; exact ⟨rfl, rfl⟩
  | add_lost v1 =>
    cases h2 with
    | add_lost => exact ⟨rfl, rfl⟩
    | add_lost_fails v2 => exact absurd v1 v2
  | add_lost_fails v1 =>
    cases h2 with
    | add_lost v2 => exact absurd v2 v1
    | add_lost_fails => exact ⟨rfl, rfl⟩
  | delete g1 g2 l1 =>
    cases h2 with
    | delete g3 g4 l2 => rw [given_or_unique g1 g3, given_or_unique g2 g4]; exact ⟨rfl, rfl⟩
    | delete_fails n => exact absurd (valid_of_given g1) n
    | delete_fails_edges g3 n => exact absurd (pairs_of_given g2 l1) n
  | delete_fails n =>
    cases h2 with
    | delete g3 g4 l2 => exact absurd (valid_of_given g3) n
    | delete_fails => exact ⟨rfl, rfl⟩
    | delete_fails_edges g3 => exact absurd (valid_of_given g3) n
  | delete_fails_edges g1 n =>
    cases h2 with
    | delete g3 g4 l2 => exact absurd (pairs_of_given g4 l2) n
    | delete_fails n' => exact absurd (valid_of_given g1) n'
    | delete_fails_edges g3 => rw [given_or_unique g1 g3]; exact ⟨rfl, rfl⟩
  | delete_lost v1 w1 =>
    cases h2 with
    | delete_lost => exact ⟨rfl, rfl⟩
    | delete_lost_fails n => exact absurd ⟨v1, w1⟩ n
  | delete_lost_fails n =>
    cases h2 with
    | delete_lost v1 w1 => exact absurd ⟨v1, w1⟩ n
    | delete_lost_fails => exact ⟨rfl, rfl⟩
  | build => cases h2; exact ⟨rfl, rfl⟩
  | build_fails => cases h2; exact ⟨rfl, rfl⟩
  | clean y =>
    cases h2 with
    | clean => exact ⟨rfl, rfl⟩
    | clean_refused n => rcases y with h | h
                         · cases h
                         · exact absurd h n
  | clean_fails y =>
    cases h2 with
    | clean_fails => exact ⟨rfl, rfl⟩
    | clean_refused n => rcases y with h | h
                         · cases h
                         · exact absurd h n
  | clean_refused n =>
    cases h2 with
    | clean y => rcases y with h | h
                 · cases h
                 · exact absurd h n
    | clean_fails y => rcases y with h | h
                       · cases h
                       · exact absurd h n
    | clean_refused => exact ⟨rfl, rfl⟩
  | random y =>
    cases h2 with
    | random => exact ⟨rfl, rfl⟩
    | random_refused n => rcases y with h | h
                          · cases h
                          · exact absurd h n
  | random_fails y =>
    cases h2 with
    | random_fails => exact ⟨rfl, rfl⟩
    | random_refused n => rcases y with h | h
                          · cases h
                          · exact absurd h n
  | random_refused n =>
    cases h2 with
    | random y => rcases y with h | h
                  · cases h
                  · exact absurd h n
    | random_fails y => rcases y with h | h
                        · cases h
                        · exact absurd h n
    | random_refused => exact ⟨rfl, rfl⟩

theorem history_unique {cmds : List Cmd} {S S1 S2 : Option SetGraph} {e1 e2 : List Exit} (h1 : History cmds S S1 e1)
    (h2 : History cmds S S2 e2) : S1 = S2 ∧ e1 = e2 := by
  induction h1 generalizing S2 e2 with
  | nil => cases h2; exact ⟨rfl, rfl⟩
  | cons a _ ih =>
    cases h2 with
    | cons b h2 =>
      obtain ⟨rfl, rfl⟩ := effect_unique a b
      obtain ⟨rfl, rfl⟩ := ih h2
      exact ⟨rfl, rfl⟩

end Store
end GC
