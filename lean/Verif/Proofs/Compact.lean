/-
Number of characters of a saved graph, compared with the text it was loaded from.
-/
import Verif.Proofs.NoWait
namespace GC
namespace Compact
open Store Text Format Unlink

/-! ### Decimal numerals -/

theorem numeral_lt {ds : Text} {n : Nat} (h : Numeral ds n) : n < 10 ^ ds.length := by
  induction h with
  | digit hd => have := (digitOf_iff.1 hd).1; simpa using this
  | snoc _ hd ih =>
    have := (digitOf_iff.1 hd).1
    rw [List.length_append, List.length_singleton, Nat.pow_succ]
    omega

theorem showFuel_short (f : Nat) : ∀ (k n : Nat), n < 10 ^ (k + 1) → (showFuel f n).length ≤ k + 1 := by
  induction f with
  | zero => intro k n _; simp [showFuel]
  | succ f ih =>
    intro k n h
    rw [showFuel]
    split
    · simp
    · cases k with
      | zero => simp at h; omega
      | succ k =>
        have := ih k (n / 10) (by rw [Nat.div_lt_iff_lt_mul (by omega)]; rw [← Nat.pow_succ]; exact h)
        rw [List.length_append, List.length_singleton]
        omega

/-- No numeral of an id is shorter than the one that is written. -/
theorem showId_shortest {d : Text} {v : VertexId} (h : DenotesId d v) : (showId v).length ≤ d.length := by
  have h1 := numeral_lt h
  have h2 := h.ne_nil
  cases d with
  | nil => exact absurd rfl h2
  | cons c d => exact showFuel_short 20 d.length _ h1

theorem showId_pos (v : VertexId) : 1 ≤ (showId v).length := by
  have := (denotes_showId v).ne_nil
  cases h : showId v with
  | nil => exact absurd h this
  | cons c d => simp

/-! ### Characters of a saved graph -/

/-- Characters for a vertex. -/
def vcost (v : VertexId) : Nat := (showId v).length + 11
/-- Characters for an edge. -/
def ecost (e : Edge) : Nat := (showId e.src).length + (showId e.dst).length + 10

theorem length_flatMap_sum {α : Type} (f : α → Text) (c : α → Nat) (h : ∀ a, (f a).length = c a) (l : List α) :
    (l.flatMap f).length = (l.map c).sum := by
  induction l with
  | nil => rfl
  | cons a l ih => rw [List.flatMap_cons, List.length_append, ih, h, List.map_cons, List.sum_cons]

theorem save_length (g : DirectedGraph) : (Gcmd.save g).length = (g.vertices.map vcost).sum + (g.edges.map ecost).sum := by
  unfold Gcmd.save
  rw [List.length_append, length_flatMap_sum _ vcost, length_flatMap_sum _ ecost]
  · intro e; simp [Gcmd.kwAddEdge, ecost]; omega
  · intro v; simp [Gcmd.kwAddVertex, vcost]

theorem sum_sublist {α : Type} {c : α → Nat} {l m : List α} (h : l.Sublist m) : (l.map c).sum ≤ (m.map c).sum := by
  induction h with
  | slnil => exact Nat.le_refl _
  | cons a _ ih => rw [List.map_cons, List.sum_cons]; omega
  | cons_cons a _ ih => rw [List.map_cons, List.sum_cons, List.map_cons, List.sum_cons]; omega

theorem sum_subset {α : Type} {c : α → Nat} {l m : List α} (hn : l.Nodup) (h : l ⊆ m) : (l.map c).sum ≤ (m.map c).sum := by
  obtain ⟨k, h1, h2⟩ := List.subperm_of_subset hn h
  rw [← (h1.map c).sum_eq]
  exact sum_sublist h2

theorem sum_same {α : Type} {c : α → Nat} {l m : List α} (hl : l.Nodup) (hm : m.Nodup) (h : ∀ a, a ∈ l ↔ a ∈ m) : (l.map c).sum = (m.map c).sum :=
  Nat.le_antisymm (sum_subset hl fun a => (h a).1) (sum_subset hm fun a => (h a).2)

theorem save_same {g g' : DirectedGraph} (hg : WF g) (hg' : WF g') (h : SameGraph g g') : (Gcmd.save g).length = (Gcmd.save g').length := by
  rw [save_length, save_length, sum_same hg.nodup_vertices hg'.nodup_vertices, sum_same hg.nodup_edges hg'.nodup_edges]
  · intro e; rw [hg.mem_edges, hg'.mem_edges, h.2]
  · intro v; rw [mem_vertices, mem_vertices, h.1]

/-! ### Characters of the text that was loaded -/

/-- The vertices added as such. -/
def addedVertex : GraphCommand → Option VertexId
  | .AddVertex v => some v
  | _ => none

theorem syntax_named {l : Text} {c : GraphCommand} (h : GcmdSyntax l c) :
    ((named c).map vcost).sum + ((namedEdge c).toList.map ecost).sum ≤ 3 * (l.length + 1) := by
  cases h with
  | addVertex h1 => have := showId_shortest h1; simp [named, namedEdge, vcost]; omega
  | removeVertex h1 => have := showId_shortest h1; simp [named, namedEdge, vcost]; omega
  | addEdge h1 hw h2 =>
    have := showId_shortest h1
    have := showId_shortest h2
    have := List.length_pos_of_ne_nil hw.1
    have := List.length_pos_of_ne_nil h1.ne_nil
    have := List.length_pos_of_ne_nil h2.ne_nil
    simp [named, namedEdge, vcost, ecost]
    omega
  | removeEdge h1 hw h2 =>
    have := showId_shortest h1
    have := showId_shortest h2
    have := List.length_pos_of_ne_nil hw.1
    simp [named, namedEdge, vcost]
    omega

theorem syntax_added {l : Text} {c : GraphCommand} (h : GcmdSyntax l c) :
    ((addedVertex c).toList.map vcost).sum + ((namedEdge c).toList.map ecost).sum ≤ l.length + 1 := by
  cases h with
  | addVertex h1 => have := showId_shortest h1; simp [addedVertex, namedEdge, vcost]; omega
  | removeVertex h1 => simp [addedVertex, namedEdge]
  | addEdge h1 hw h2 =>
    have := showId_shortest h1
    have := showId_shortest h2
    have := List.length_pos_of_ne_nil hw.1
    simp [addedVertex, namedEdge, ecost]
    omega
  | removeEdge h1 hw h2 => simp [addedVertex, namedEdge]

/-- Characters of the lines with their line feeds. -/
def lineSizes (ls : List Text) : Nat := (ls.map fun l => l.length + 1).sum

theorem sum_toList {α : Type} (f : GraphCommand → Option α) (c : α → Nat) (x : GraphCommand) (cs : List GraphCommand) :
    (((x :: cs).filterMap f).map c).sum = ((f x).toList.map c).sum + ((cs.filterMap f).map c).sum := by
  rw [List.filterMap_cons]
  cases f x <;> simp

theorem reads_named {nd : Char → Bool} {ls : List Text} {cs : List GraphCommand} (h : ReadsAs (Gcmd.parseLine nd) ls cs) :
    ((cs.flatMap named).map vcost).sum + ((cs.filterMap namedEdge).map ecost).sum ≤ 3 * lineSizes ls := by
  induction h with
  | nil => simp [lineSizes]
  | skip _ _ ih => unfold lineSizes at ih ⊢; rw [List.map_cons, List.sum_cons]; omega
  | @cons l ls c cs _ h2 _ ih =>
    have := syntax_named (gcmd_parseLine_ok.1 h2)
    unfold lineSizes at ih ⊢
    rw [List.map_cons, List.sum_cons, List.flatMap_cons, List.map_append, List.sum_append, sum_toList]
    omega

theorem reads_added {nd : Char → Bool} {ls : List Text} {cs : List GraphCommand} (h : ReadsAs (Gcmd.parseLine nd) ls cs) :
    ((cs.filterMap addedVertex).map vcost).sum + ((cs.filterMap namedEdge).map ecost).sum ≤ lineSizes ls := by
  induction h with
  | nil => simp [lineSizes]
  | skip _ _ ih => unfold lineSizes at ih ⊢; rw [List.map_cons, List.sum_cons]; omega
  | @cons l ls c cs _ h2 _ ih =>
    have := syntax_added (gcmd_parseLine_ok.1 h2)
    unfold lineSizes at ih ⊢
    rw [List.map_cons, List.sum_cons, sum_toList, sum_toList]
    omega

theorem linesAux_sizes (t : Text) : ∀ cur : Text, lineSizes (linesAux cur t) ≤ cur.length + t.length + 1 ∧
    ((t = [] ∧ cur = [] ∨ t.getLast? = some '\n') → lineSizes (linesAux cur t) ≤ cur.length + t.length) := by
  induction t with
  | nil => intro cur; cases cur <;> simp [linesAux, lineSizes]
  | cons c t ih =>
    intro cur
    have hl : ∀ x : Text, (stripCr x).length ≤ x.length := by
      intro x
      unfold stripCr
      split
      · simp
      · exact Nat.le_refl _
    have hlast : t = [] ∧ c = '\n' ∨ t.getLast? = some '\n' ↔ (c :: t).getLast? = some '\n' := by
      cases t with
      | nil => simp
      | cons d t => simp [List.getLast?_cons_cons]
    rw [linesAux]
    split
    · obtain ⟨h1, h2⟩ := ih []
      have h3 := hl cur
      simp only [lineSizes, List.map_cons, List.sum_cons, List.length_cons, List.length_nil] at h1 h2 ⊢
      refine ⟨by omega, fun h => ?_⟩
      rcases h with ⟨h, _⟩ | h
      · cases h
      · rcases hlast.2 h with ⟨rfl, _⟩ | h
        · have := h2 (.inl ⟨rfl, trivial⟩); simp only [List.length_nil] at this ⊢; omega
        · have := h2 (.inr h); omega
    · rename_i hc
      obtain ⟨h1, h2⟩ := ih (cur ++ [c])
      simp only [List.length_append, List.length_cons, List.length_nil] at h1 h2 ⊢
      refine ⟨by omega, fun h => ?_⟩
      rcases h with ⟨h, _⟩ | h
      · cases h
      · rcases hlast.2 h with ⟨_, h⟩ | h
        · exact absurd h hc
        · have := h2 (.inr h); omega

theorem lines_sizes (t : Text) : lineSizes (lines t) ≤ t.length + 1 ∧ (NewlineTerminated t → lineSizes (lines t) ≤ t.length) := by
  obtain ⟨h1, h2⟩ := linesAux_sizes t []
  simp only [List.length_nil, Nat.zero_add] at h1 h2
  exact ⟨h1, fun h => h2 (h.imp (fun h => ⟨h, trivial⟩) id)⟩

theorem loaded_named {nd : Char → Bool} {ls : List Text} {cs : List GraphCommand} (h : ReadsAs (Gcmd.parseLine nd) ls cs) :
    (Gcmd.save (GraphCommand.applyCommands cs .new)).length ≤ 3 * lineSizes ls ∧
    ((∀ v, (GraphCommand.applyCommands cs .new).containsVertex v = true → .AddVertex v ∈ cs) →
      (Gcmd.save (GraphCommand.applyCommands cs .new)).length ≤ lineSizes ls) := by
  have hw : WF (GraphCommand.applyCommands cs .new) := (Built.new.applyCommands cs).wf
  have ht := toSet_applyCommands WF.new cs
  rw [toSet_new] at ht
  obtain ⟨h1, h2⟩ := run_named cs SetGraph.empty
  have hE : (GraphCommand.applyCommands cs .new).edges ⊆ cs.filterMap namedEdge := by
    intro e he
    have : (GraphCommand.applyCommands cs .new).toSet.E e := hw.mem_edges.1 he
    rw [ht] at this
    exact (h2 e this).resolve_left id
  have e1 := sum_subset (c := ecost) hw.nodup_edges hE
  rw [save_length]
  constructor
  · have hV : (GraphCommand.applyCommands cs .new).vertices ⊆ cs.flatMap named := by
      intro v hv
      have : (GraphCommand.applyCommands cs .new).toSet.V v := mem_vertices.1 hv
      rw [ht] at this
      exact (h1 v this).resolve_left id
    have e2 := sum_subset (c := vcost) hw.nodup_vertices hV
    have := reads_named h
    omega
  · intro ha
    have hV : (GraphCommand.applyCommands cs .new).vertices ⊆ cs.filterMap addedVertex := fun v hv =>
      List.mem_filterMap.2 ⟨_, ha v (mem_vertices.1 hv), rfl⟩
    have e2 := sum_subset (c := vcost) hw.nodup_vertices hV
    have := reads_added h
    omega

/-- A command line among the lines is among the commands. -/
theorem reads_mem {nd : Char → Bool} {ls : List Text} {cs : List GraphCommand} (h : ReadsAs (Gcmd.parseLine nd) ls cs) {l : Text} {c : GraphCommand}
    (hl : l ∈ ls) (hc : GcmdSyntax l c) : c ∈ cs := by
  induction h with
  | nil => cases hl
  | skip h1 _ ih =>
    rcases List.mem_cons.1 hl with rfl | hl
    · exact absurd hc.active h1
    · exact ih hl
  | cons _ h2 _ ih =>
    rcases List.mem_cons.1 hl with rfl | hl
    · rw [gcmd_parseLine_ok.2 hc] at h2
      cases h2
      exact List.mem_cons_self
    · exact List.mem_cons_of_mem _ (ih hl)

theorem gcmd_read_ok {nd : Char → Bool} {c : Text} {g : DirectedGraph} (h : Gcmd.read nd c = .done (.ok g)) :
    ∃ cs, ReadsAs (Gcmd.parseLine nd) (lines c) cs ∧ g = GraphCommand.applyCommands cs .new := by
  unfold Gcmd.read Format.read at h
  cases hr : Format.readAsCommands (Gcmd.parseLine nd) c with
  | running => rw [hr] at h; cases h
  | panicked => rw [hr] at h; cases h
  | done r =>
    cases r with
    | error e => rw [hr] at h; cases h
    | ok cs =>
      rw [hr] at h
      cases h
      exact ⟨cs, (readAsCommands_ok_iff (gcmd_no_running nd)).1 hr, rfl⟩

/-- What gc-build leaves. -/
theorem gcBuild_content {nd : Char → Bool} {order : DirectedGraph → DirectedGraph} (ho : IsOrder order) {root : FPath} {fs fs' : FS}
    (h : gcBuild nd order root fs = (fs', .success)) :
    ∃ c g, Content root fs c ∧ loadGraph nd root fs = .done (.ok g) ∧ WF g ∧ WF (order g) ∧ SameGraph (order g) g ∧
      Content root fs' (Gcmd.save (order g)) := by
  unfold gcBuild at h
  split at h
  · rename_i g hg
    obtain ⟨hb, c, hc, hr⟩ := loadGraph_built hg
    refine ⟨c, g, hc, hg, hb.wf, (hb.reorder (ho g)).wf, sameGraph_iff.2 (toSet_perm hb.wf (ho g)), ?_⟩
    unfold saveGraphAsCommands createTruncate at h
    unfold Content at hc ⊢
    rw [hc] at h
    simp only [appendText, FS.set_self, expectOk, Prod.mk.injEq] at h
    rw [← h.1]
    simp [FS.set_self]
  · cases h
end Compact
end GC
