/-
Properties C94 to C97 for batches of any size, and whatever the command file holds: what can be said about the bytes.
-/
import Verif.Proofs.Pieces
import Verif.Props.Unlink
namespace GC
namespace Unlink
open Store Text Format

variable (nd : Char → Bool) (order : Nat → DirectedGraph → DirectedGraph)

/-- C94 (partial) for batches of any size: gc-add, gc-delete, gc-init, gc-clean and queries run in any order, step by step, on a command file
with any content. At any two moments there are histories of the pieces written that explain what is stored and what was answered: every process
wrote in order a beginning of its batch, to one command file, and all of it if it reported success; and a query has read one command file as it
was at some time. The later history extends the earlier one; and a process that had not opened the command file at the first moment sees or
extends what was there then (or a later file).
Missing: that pieces of different batches do not mix, which is false (`C63_counterexample`); gc-build and gc-random
(`C95_build_counterexample`, `C94_random_counterexample`). -/
theorem C94_pieces_partial (root : FPath) (jobs : List Job) (ho : NoRewrite jobs) (before after : List Nat) (fs : FS) (c : Text)
    (hc : Content root fs c) :
    let s0 := run nd order root jobs before fs
    let s := run nd order root jobs (before ++ after) fs
    ∃ W0 W : Nat → List (Nat × Text), Pieces nd root jobs c W0 s0 ∧ Pieces nd root jobs c W s ∧
      (∀ k, W0 k <+: W k) ∧ s0.world.gen ≤ s.world.gen ∧
      (∀ k, ∀ p ∈ W k, NotOpened (s0.pc p.1) → s0.world.gen ≤ k ∧ ∀ q ∈ W0 k, q.1 ≠ p.1) ∧
      (∀ i res, NotOpened (s0.pc i) → jobs[i]? = some .query → s.pc i = .answered res → res = .done (.error (.io .notFound)) ∨
        ∃ k pre, s0.world.gen ≤ k ∧ k ≤ s.world.gen ∧ W0 k <+: pre ∧ pre <+: W k ∧ ReadAs nd (fileText c k pre) res) := by
  intro s0 s
  obtain ⟨W0, h0, _⟩ := (Piece.inv_init (nd := nd) (jobs := jobs) hc).run (order := order) ho before
  change Piece.Inv nd root jobs c _ W0 s0 at h0
  have h1 := h0.rebase (b := s0.world.gen + 1) (Nat.le_succ _) (fun _ => Nat.lt_succ_self _)
  obtain ⟨W, h2, he⟩ := h1.run (order := order) ho after
  have es : s = after.foldl (step nd order root jobs) s0 := List.foldl_append
  rw [es]
  refine ⟨W0, W, h0.pieces, h2.pieces, he, h2.gen, fun k p hp hn => h2.log.late k p hp hn, ?_⟩
  intro i res hn hj hpc
  have := h2.proc i _ hj
  rw [hpc] at this
  rcases this with e | ⟨k, pre, hop, hp, hl, e⟩
  · exact .inl e
  · exact .inr ⟨k, pre, hop.2.2.1 hn, hop.1, hl hn, hp, e⟩

/-- C95 (partial) for batches of any size: if there is no command file at some moment, then no byte of what was stored before comes back. What
is stored later, and what a query reads that opens the command file later, consists of pieces written by processes that opened the command file
later, each of which wrote a beginning of its batch.
Missing: gc-build and gc-random, for which this is false (`C95_build_counterexample`). -/
theorem C95_bytes_partial (root : FPath) (jobs : List Job) (ho : NoRewrite jobs) (before after : List Nat) (fs : FS) (c : Text)
    (hc : Content root fs c) (hnone : (run nd order root jobs before fs).world.fs (commandPath root) = none) :
    let s0 := run nd order root jobs before fs
    let s := run nd order root jobs (before ++ after) fs
    let Late := fun l : List (Nat × Text) =>
      ∀ p ∈ l, ∃ cs, jobs[p.1]? = some (.add cs) ∧ NotOpened (s0.pc p.1) ∧ contribution p.1 l <+: Gcmd.commandsText cs
    (s.world.fs (commandPath root) = none ∨ ∃ l, Late l ∧ Content root s.world.fs (l.map Prod.snd).flatten) ∧
    (∀ i res, NotOpened (s0.pc i) → jobs[i]? = some .query → s.pc i = .answered res → res = .done (.error (.io .notFound)) ∨
      ∃ l, Late l ∧ ReadAs nd (l.map Prod.snd).flatten res) := by
  intro s0 s Late
  obtain ⟨W0, h0, _⟩ := (Piece.inv_init (nd := nd) (jobs := jobs) hc).run (order := order) ho before
  change Piece.Inv nd root jobs c _ W0 s0 at h0
  have h1 := h0.rebase (b := s0.world.gen) le_rfl (fun h => absurd hnone h)
  have hpos : s0.world.gen ≠ 0 := by
    rcases h0.world.slot with ⟨_, _, h⟩ | h
    · exact h
    · exact absurd (hnone.symm.trans h) (by simp)
  obtain ⟨W, h2, he⟩ := h1.run (order := order) ho after
  have es : s = after.foldl (step nd order root jobs) s0 := List.foldl_append
  have hlate : ∀ k, s0.world.gen ≤ k → ∀ l, l <+: W k → Late l := by
    intro k hk l hl p hp
    have hp' := hl.subset hp
    obtain ⟨cs, hj⟩ := h2.log.adds k p hp'
    refine ⟨cs, hj, ?_, List.IsPrefix.trans ?_ (h2.log.batch p.1 cs k hj)⟩
    · by_contra hn
      have := h2.log.early k p hp' hn
      dsimp only at this
      omega
    · obtain ⟨t, e⟩ := hl
      rw [← e]
      unfold contribution
      rw [List.filter_append, List.map_append, List.flatten_append]
      exact List.prefix_append _ _
  have htext : ∀ k l, s0.world.gen ≤ k → fileText c k l = (l.map Prod.snd).flatten := by
    intro k l hk
    unfold fileText
    rw [if_neg (by omega)]
    rfl
  rw [es]
  have hgen : s0.world.gen ≤ (after.foldl (step nd order root jobs) s0).world.gen := h2.gen
  refine ⟨?_, ?_⟩
  · rcases h2.world.slot with h | h
    · exact .inl h.1
    · refine .inr ⟨W (after.foldl (step nd order root jobs) s0).world.gen, hlate _ hgen _ List.prefix_rfl, ?_⟩
      rw [← htext _ _ hgen]
      exact h
  · intro i res hn hj hpc
    have := h2.proc i _ hj
    rw [hpc] at this
    rcases this with e | ⟨k, pre, hop, hp, hl, e⟩
    · exact .inl e
    · have hk := hop.2.2.1 hn
      exact .inr ⟨pre, hlate k hk pre hp, by rw [← htext k pre hk]; exact e⟩

/-- C96 (partial) for batches of any size: an addition that opened the command file after a given moment, and that reported success, is in the
command file with its whole batch, in order, if no gc-clean made a step after that moment, whatever else happened.
Missing: that pieces of different batches do not mix, which is false (`C63_counterexample`); gc-build and gc-random, see `C96_build_counterexample`. -/
theorem C96_bytes_partial (root : FPath) (jobs : List Job) (ho : NoRewrite jobs) (before after : List Nat) (fs : FS) (c : Text)
    (hc : Content root fs c) (hclean : ∀ j ∈ after, jobs[j]? ≠ some .clean) :
    let s0 := run nd order root jobs before fs
    let s := run nd order root jobs (before ++ after) fs
    ∃ (base : Text) (l : List (Nat × Text)), (base = c ∨ base = []) ∧
      (∀ p ∈ l, ∃ cs, jobs[p.1]? = some (.add cs)) ∧
      (∀ i cs, jobs[i]? = some (.add cs) → contribution i l <+: Gcmd.commandsText cs) ∧
      (∀ i cs, jobs[i]? = some (.add cs) → cs ≠ [] → NotOpened (s0.pc i) → s.pc i = .finished true →
        contribution i l = Gcmd.commandsText cs ∧ Content root s.world.fs (base ++ (l.map Prod.snd).flatten)) := by
  intro s0 s
  obtain ⟨W0, W, _, h2, _, _, h5, _⟩ := C94_pieces_partial nd order root jobs ho before after fs c hc
  have es : s = after.foldl (step nd order root jobs) s0 := List.foldl_append
  have hgen : s.world.gen = s0.world.gen := by
    rw [es]
    exact gen_run after hclean ho.1 ho.2 s0
  refine ⟨if s.world.gen = 0 then c else [], W s.world.gen, ?_, h2.writers _, fun i cs hj => h2.batch i cs _ hj, ?_⟩
  · split
    · exact .inl rfl
    · exact .inr rfl
  · intro i cs hj hcs hn hf
    obtain ⟨k, hk, hi⟩ := h2.success i cs hj hf
    have hne : ∃ p ∈ W k, p.1 = i := by
      by_contra hno
      have := Piece.contribution_none (i := i) (l := W k) (fun p hp e => hno ⟨p, hp, e⟩)
      rw [hi] at this
      obtain ⟨c1, cs1, rfl⟩ : ∃ a b, cs = a :: b := by
        cases cs with
        | nil => exact absurd rfl hcs
        | cons a b => exact ⟨a, b, rfl⟩
      simp [Gcmd.commandsText] at this
    obtain ⟨p, hp, rfl⟩ := hne
    have hk' := (h5 k p hp hn).1
    have e : k = s.world.gen := by
      change k ≤ s.world.gen at hk
      change s0.world.gen ≤ k at hk'
      omega
    rw [e] at hi hp
    refine ⟨hi, ?_⟩
    rcases h2.stored with h | h
    · have := h.2.1
      rw [this] at hp
      cases hp
    · exact h

/-- C97 (partial) for batches of any size: after a gc-clean that reported success, a query reads no byte of what was added by processes that had
opened the command file when gc-clean began. (Process `i` is that gc-clean: not yet begun after `before`, returned after `before ++ during`;
process `q` is a query that begins later.)
Missing: gc-build and gc-random (`C95_build_counterexample`). -/
theorem C97_bytes_partial (root : FPath) (jobs : List Job) (ho : NoRewrite jobs) (before during after : List Nat) (fs : FS) (c : Text)
    (hc : Content root fs c)
    (i : Nat) (hi : jobs[i]? = some .clean) (hstart : (run nd order root jobs before fs).pc i = .start)
    (hend : (run nd order root jobs (before ++ during) fs).pc i = .finished true)
    (q : Nat) (hq : jobs[q]? = some .query) (hqs : (run nd order root jobs (before ++ during) fs).pc q = .start)
    (res : Run (Except LoadError DirectedGraph)) (hres : (run nd order root jobs (before ++ during ++ after) fs).pc q = .answered res) :
    res = .done (.error (.io .notFound)) ∨
    ∃ l : List (Nat × Text),
      (∀ p ∈ l, ∃ cs, jobs[p.1]? = some (.add cs) ∧ NotOpened ((run nd order root jobs before fs).pc p.1) ∧
        contribution p.1 l <+: Gcmd.commandsText cs) ∧
      ReadAs nd (l.map Prod.snd).flatten res := by
  have es : run nd order root jobs (before ++ during) fs = during.foldl (step nd order root jobs) (run nd order root jobs before fs) :=
    List.foldl_append
  rw [es] at hend hqs
  obtain ⟨a, b, rfl, hnone⟩ := clean_moment (order := order) hi during (by rw [hstart]; simp) (by rw [hstart]; simp) hend
  have ea : run nd order root jobs (before ++ a) fs = a.foldl (step nd order root jobs) (run nd order root jobs before fs) := List.foldl_append
  rw [← ea] at hnone
  rw [List.foldl_append, ← ea] at hqs
  have h := (C95_bytes_partial nd order root jobs ho (before ++ a) (b ++ after) fs c hc hnone).2 q res
    (notOpened_run (order := order) b hq (.inr rfl) (.inl hqs)) hq (by simpa [List.append_assoc] using hres)
  refine h.imp id ?_
  rintro ⟨l, h2, h3⟩
  refine ⟨l, fun p hp => ?_, h3⟩
  obtain ⟨cs, hcs, hn, hb⟩ := h2 p hp
  rw [ea] at hn
  exact ⟨cs, hcs, notOpened_run (order := order) a hcs (.inl ⟨cs, rfl⟩) hn, hb⟩

/-- For these theorems: a batch longer than the buffer, with gc-clean, gc-init and a query. -/
example : NoRewrite [.add Concurrent.largeBatch, .clean, .init, .add [.AddVertex 2], .query] := by
  refine ⟨fun j h => ?_, fun j g h => ?_⟩ <;> have := List.mem_of_getElem? h <;> simp at this

/-- For these theorems: the situations beside `C94_lives_partial`, `C95_nothing_back_partial`, `C96_kept_partial` and `C97_cleaned_partial`. -/
example : NoRewrite exJobs := ⟨exJobs_ordinary.1, exJobs_ordinary.2.1⟩

/-- For `C94_pieces_partial`: a query (0) that reads in two goes. It meets the end of the file in the middle of a line, and then finds what an
addition (1) wrote; it takes the two for two lines, so it answers, while the file cannot be loaded. -/
example : let s := run (fun _ => false) (fun _ => id) [['d']] [.query, .add [.AddVertex 2]] ([0, 0, 0] ++ [1, 1, 1, 1, 1, 1] ++ [0, 0]) (sampleFS "AddVertex 1".toList)
    answerOf (s.pc 0) = some [1, 2] ∧ reportOf (s.pc 1) = some true ∧
      (match loadGraph (fun _ => false) [['d']] s.world.fs with
      | .done (.error (.parse _)) => true
      | _ => false) = true := by
  decide +kernel

end Unlink
end GC
