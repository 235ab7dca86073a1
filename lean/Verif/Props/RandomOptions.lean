/-
Property C103: the options --connected and --cycle of gc-random.
-/
import Verif.Props.RandomQueries
import Verif.Spec.Cycle
namespace GC
namespace Random
open DirectedGraph Store Text

theorem acyclic_same {g g' : DirectedGraph} (h : SameGraph g' g) (ha : Acyclic g) : Acyclic g' := by
  intro v hv
  have key : ∀ u, Relation.TransGen (Adj g') v u → Relation.TransGen (Adj g) v u := by
    intro u hu
    induction hu with
    | single hab => exact .single (by unfold Adj at hab ⊢; rw [← h.2]; exact hab)
    | tail _ hab ih => exact ih.tail (by unfold Adj at hab ⊢; rw [← h.2]; exact hab)
  exact ha v (key v hv)

/-- C103 is false for `--cycle`: whatever the options and the random numbers are, when gc-random has replaced the graph there is no cycle
at all in the stored graph. So no cycle that was asked for is there. -/
theorem C103_counterexample_cycle (nd : Char → Bool) (rng : Nat → UInt64) (order : DirectedGraph → DirectedGraph) (ho : IsOrder order)
    (o : Options) (answer : Text) (fs : FS) (vc ec : Nat) (g : DirectedGraph) (hw : fs.WF)
    (hg : fs (rootPath o.path) = some .dir) (hl : fs (lockPath o.path) ≠ some .dir)
    (ha : o.force = true ∨ Args.confirmationYesNo answer = true)
    (hv : parseUsize o.vertexCount = some vc) (h3 : vc * 3 < 2 ^ 64) (he : o.edgeCount.bind parseUsize = some ec)
    (hr : Returns (createsRandomDag rng vc ec) (some g)) :
    ∃ fs' g', Returns (main rng order o answer fs) (fs', .success) ∧ loadGraph nd o.path fs' = .done (.ok g') ∧
      ∀ v l, WalkFromTo g' v v l → l = [v] := by
  obtain ⟨fs', g', h1, h2, h4, _⟩ := C60_command nd rng order ho o.path o.force answer o.vertexCount o.edgeCount fs vc ec g hw hg hl ha hv h3
    (.inl (by
      cases h : o.edgeCount with
      | none => rw [h] at he; cases he
      | some t => rw [h] at he; exact ⟨t, rfl, he⟩)) hr
  obtain ⟨_, e, _, hac, _⟩ := C60_dag rng vc ec (by omega) _ hr
  cases e
  have ha' := acyclic_same h4 hac
  refine ⟨fs', g', h1, h2, fun v l hl => ?_⟩
  obtain ⟨c1, c2, c3⟩ := hl
  cases l with
  | nil => cases c2
  | cons a l =>
    cases c2
    cases l with
    | nil => rfl
    | cons b l =>
      exfalso
      refine ha' v ?_
      have key : ∀ (l : List VertexId) (a b : VertexId), List.IsChain (Adj g') (a :: b :: l) → (a :: b :: l).getLast? = some v →
          Relation.TransGen (Adj g') a v := by
        intro l
        induction l with
        | nil =>
          intro a b h hl
          simp only [List.getLast?_cons_cons, List.getLast?_singleton, Option.some.injEq] at hl
          subst hl
          simp only [List.isChain_cons_cons, List.isChain_singleton, and_true] at h
          exact .single h
        | cons x l ih =>
          intro a b h hl
          rw [List.isChain_cons_cons] at h
          rw [List.getLast?_cons_cons] at hl
          exact Relation.TransGen.head h.1 (ih b x h.2 hl)
      exact key l v b c1 c3

/-- Options of `gc-random -p d -f -c --cycle 1 2 -v 3 -e 1`. -/
def exOptions : Options := ⟨[['d']], true, true, some [['1'], ['2']], ['3'], some ['1']⟩

/-- Random numbers 7, 8, 8, ... -/
def exDraws : Nat → UInt64 := fun k => if k = 0 then 7 else 8

theorem exDraws_returns : Returns (createsRandomDag exDraws 3 1) (some (drawRound exDraws 3 ⟨.new, 0⟩).graph) := by
  refine ⟨2, fun m hm => ?_⟩
  obtain ⟨m, rfl⟩ : ∃ j, m = j + 2 := ⟨m - 2, by omega⟩
  rfl

/-- C103 is false for `--connected`: with three vertices, one edge and the random numbers 7, 8 the stored graph has the edges 1→7 and 2→8
and is not connected, not even when directions are ignored. -/
theorem C103_counterexample_connected (nd : Char → Bool) :
    exOptions.connected = true ∧ ∃ fs' g', Returns (main exDraws id exOptions [] (sampleFS [])) (fs', .success) ∧
      loadGraph nd exOptions.path fs' = .done (.ok g') ∧ ¬ WeaklyConnected g' := by
  refine ⟨rfl, ?_⟩
  obtain ⟨fs', g', h1, h2, h4, _⟩ := C60_command nd exDraws id (fun _ => .refl _) exOptions.path true [] ['3'] (some ['1']) (sampleFS []) 3 1 _
    (sampleFS_wf []) rfl (by decide) (.inl rfl) (by decide) (by decide) (.inl ⟨_, rfl, by decide⟩) exDraws_returns
  refine ⟨fs', g', h1, h2, fun hc => ?_⟩
  have hedges : (drawRound exDraws 3 ⟨.new, 0⟩).graph.edges = [⟨1, 7⟩, ⟨2, 8⟩] := by decide
  have hb : Built (drawRound exDraws 3 ⟨.new, 0⟩).graph := by
    obtain ⟨_, e, hb, _⟩ := C60_dag exDraws 3 1 (by decide) _ exDraws_returns
    cases e
    exact hb
  have hadj : ∀ a b, Adj g' a b → (a = 1 ∧ b = 7) ∨ (a = 2 ∧ b = 8) := by
    intro a b hab
    have := hb.wf.mem_edges.2 ((h4.2 _).symm.trans hab)
    rw [hedges] at this
    simp only [List.mem_cons, Edge.mk.injEq, List.not_mem_nil, or_false] at this
    exact this
  have h12 := hc 1 2 ((h4.1 _).trans (by decide)) ((h4.1 _).trans (by decide))
  have key : ∀ v, Relation.ReflTransGen (fun a b => Adj g' a b ∨ Adj g' b a) 1 v → v = 1 ∨ v = 7 := by
    intro v hv
    induction hv with
    | refl => exact .inl rfl
    | tail _ h ih =>
      rcases h with h | h <;> rcases hadj _ _ h with ⟨rfl, rfl⟩ | ⟨rfl, rfl⟩
      · exact .inr rfl
      · rcases ih with h | h <;> exact absurd h (by decide)
      · exact .inl rfl
      · rcases ih with h | h <;> exact absurd h (by decide)
  rcases key 2 h12 with h | h <;> exact absurd h (by decide)

example : parseUsize exOptions.vertexCount = some 3 ∧ exOptions.edgeCount.bind parseUsize = some 1 ∧
    (sampleFS []) (rootPath exOptions.path) = some .dir ∧ Returns (createsRandomDag exDraws 3 1) (some (drawRound exDraws 3 ⟨.new, 0⟩).graph) :=
  ⟨by decide, by decide, rfl, exDraws_returns⟩

end Random
end GC
