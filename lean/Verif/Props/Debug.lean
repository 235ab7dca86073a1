/-
Property C81: what gc-csp prints can be read back.
-/
import Verif.Proofs.Debug
import Verif.Props.Main
namespace GC
namespace Main
open Text Store Args DirectedGraph

theorem inRange_cspConstraints (a : CspArgs) : ∀ c ∈ cspConstraints a, InRange c := by
  have hn : ∀ {t : Text} {n : Nat}, parseUsize t = some n → n < 2 ^ 64 := by
    intro t n h
    obtain ⟨_, _, _, h⟩ := parseUsize_iff.1 h
    exact h
  have hi : ∀ {t : Text} {i : Int}, parseI64 t = some i → i.natAbs ≤ 2 ^ 63 := by
    intro t i h
    rcases parseI64_iff.1 h with ⟨_, n, _, _, h1, rfl⟩ | ⟨_, n, _, _, h1, rfl⟩ <;> omega
  intro c hc
  simp only [cspConstraints, List.mem_append] at hc
  rcases hc with (((((((((hc | hc) | hc) | hc) | hc) | hc) | hc) | hc) | hc) | hc) | hc
  · cases h : a.include_.bind parseVertexIdList with
    | none => rw [h] at hc; cases hc
    | some l =>
      rw [h] at hc
      obtain ⟨v, _, rfl⟩ := List.mem_map.1 hc
      trivial
  · cases h : a.exclude.bind parseVertexIdList with
    | none => rw [h] at hc; cases hc
    | some l =>
      rw [h] at hc
      obtain ⟨v, _, rfl⟩ := List.mem_map.1 hc
      trivial
  · cases h : a.ordered.bind parseVertexIdList with
    | none => rw [h] at hc; cases hc
    | some l =>
      rw [h] at hc
      simp only [Option.map_some, Option.toList_some, List.mem_singleton] at hc
      subst hc
      trivial
  · cases h : a.includeCycle with
    | false => rw [h] at hc; cases hc
    | true =>
      rw [h] at hc
      simp only [optionOf, if_true, Option.toList_some, List.mem_singleton] at hc
      subst hc
      trivial
  · cases h : a.noCycle with
    | false => rw [h] at hc; cases hc
    | true =>
      rw [h] at hc
      simp only [optionOf, if_true, Option.toList_some, List.mem_singleton] at hc
      subst hc
      trivial
  · cases h : a.minLength.bind parseUsize with
    | none => rw [h] at hc; cases hc
    | some n =>
      rw [h] at hc
      simp only [Option.map_some, Option.toList_some, List.mem_singleton] at hc
      subst hc
      obtain ⟨t, _, h⟩ := Option.bind_eq_some_iff.1 h
      exact hn h
  · cases h : a.maxLength.bind parseUsize with
    | none => rw [h] at hc; cases hc
    | some n =>
      rw [h] at hc
      simp only [Option.map_some, Option.toList_some, List.mem_singleton] at hc
      subst hc
      obtain ⟨t, _, h⟩ := Option.bind_eq_some_iff.1 h
      exact hn h
  · cases h : a.exactLength.bind parseUsize with
    | none => rw [h] at hc; cases hc
    | some n =>
      rw [h] at hc
      obtain ⟨t, _, h⟩ := Option.bind_eq_some_iff.1 h
      simp only [Option.map_some, Option.getD_some, buildExactLength, List.mem_cons, List.not_mem_nil, or_false] at hc
      rcases hc with rfl | rfl <;> exact hn h
  · cases h : a.minScore.bind parseI64 with
    | none => rw [h] at hc; cases hc
    | some n =>
      rw [h] at hc
      simp only [Option.map_some, Option.toList_some, List.mem_singleton] at hc
      subst hc
      obtain ⟨t, _, h⟩ := Option.bind_eq_some_iff.1 h
      exact hi h
  · cases h : a.maxScore.bind parseI64 with
    | none => rw [h] at hc; cases hc
    | some n =>
      rw [h] at hc
      simp only [Option.map_some, Option.toList_some, List.mem_singleton] at hc
      subst hc
      obtain ⟨t, _, h⟩ := Option.bind_eq_some_iff.1 h
      exact hi h
  · cases h : a.exactScore.bind parseI64 with
    | none => rw [h] at hc; cases hc
    | some n =>
      rw [h] at hc
      obtain ⟨t, _, h⟩ := Option.bind_eq_some_iff.1 h
      simp only [Option.map_some, Option.getD_some, buildExactScore, List.mem_cons, List.not_mem_nil, or_false] at hc
      rcases hc with rfl | rfl <;> exact hi h

/-- A run of gc-csp that ends normally had two vertex ids as arguments and a stored graph to search. -/
theorem gcCsp_ends {H : ScoredHeap} {nd : Char → Bool} {order : DirectedGraph → DirectedGraph} {root : FPath} {start end_ : Text} {a : CspArgs}
    {fs : FS} {out : Text} (hr : Returns (gcCsp H nd order root start end_ a fs) out) :
    ∃ s e g, ArgId start s ∧ ArgId end_ e ∧ loadGraph nd root fs = .done (.ok g) := by
  by_contra hn
  refine hr.not_panics (C73_rejects H nd order root fs start end_ a ?_)
  by_contra h2
  simp only [not_or, not_forall, not_not] at h2
  obtain ⟨⟨s, hs⟩, ⟨e, he⟩, ⟨g, hg⟩⟩ := h2
  exact hn ⟨s, e, g, hs, he, hg⟩

theorem csp_score {H : ScoredHeap} {g : DirectedGraph} (h : Built g) {s e : VertexId} {cs : List Constraint} {r : Option ScoredPath}
    (hr : Returns (AStar.gcCsp H g s e cs) r) : ∀ sp, r = some sp → sp.score.natAbs ≤ 2 ^ 63 := by
  rintro sp rfl
  obtain ⟨h1, _, a, b, ha, hb, hab⟩ := C35_constrained_valid H g h _ _ s e cs sp hr
  have hne : sp.path.vertices ≠ [] := by intro e; rw [e] at h1; cases h1.2.1
  rw [oneWeightedEdge_eq g _ hne] at ha
  split at ha
  · cases ha; cases hb; omega
  · cases ha

/-- C81: two runs of gc-csp, in any working directories and with any options, that print the same text applied the same
constraints in the same order, between the same vertices, and got the same answer from the search: the same path, or none. -/
theorem C81_csp_output_unambiguous (H H' : ScoredHeap) (nd nd' : Char → Bool) (order order' : DirectedGraph → DirectedGraph)
    (ho : IsOrder order) (ho' : IsOrder order') (root root' : FPath) (fs fs' : FS) (start end_ start' end_' : Text) (a a' : CspArgs)
    (out : Text) (h : Returns (gcCsp H nd order root start end_ a fs) out) (h' : Returns (gcCsp H' nd' order' root' start' end_' a' fs') out) :
    cspConstraints a = cspConstraints a' ∧
    ∃ s e g g' r, ArgId start s ∧ ArgId start' s ∧ ArgId end_ e ∧ ArgId end_' e ∧
      loadGraph nd root fs = .done (.ok g) ∧ loadGraph nd' root' fs' = .done (.ok g') ∧
      Returns (AStar.gcCsp H (order g) s e (cspConstraints a)) r ∧
      Returns (AStar.gcCsp H' (order' g') s e (cspConstraints a')) r := by
  obtain ⟨s, e, g, hs, he, hg⟩ := gcCsp_ends h
  obtain ⟨s', e', g', hs', he', hg'⟩ := gcCsp_ends h'
  obtain ⟨r, h1, rfl⟩ := gcCsp_inv hg hs he h
  obtain ⟨r', h2, h3⟩ := gcCsp_inv hg' hs' he' h'
  obtain ⟨h4, h5⟩ := constraintsText_split (inRange_cspConstraints a) (inRange_cspConstraints a') h3
  obtain ⟨rfl, rfl, rfl⟩ := cspText_injective (csp_score (adj_order ho (loadGraph_built hg).1).1 h1)
    (csp_score (adj_order ho' (loadGraph_built hg').1).1 h2) h5
  exact ⟨h4, s, e, g, g', r, hs, hs', he, he', hg, hg', h1, h2⟩

/-- C81 for the listing alone: every constraint that can be built from numbers in range, also nested, is printed differently. -/
theorem C81_constraint_text_unambiguous (c d : Constraint) (hc : InRange c) (hd : InRange d) (h : debugConstraint c = debugConstraint d) :
    c = d :=
  (debugConstraint_split (r := []) (s := []) hc hd (by rw [h])).1

/-- `C81_constraint_text_unambiguous` for a negative score. -/
example (c : Constraint) (hc : InRange c) (h : debugConstraint c = "MinScore(-4)".toList) : c = .MinScore (-4) :=
  C81_constraint_text_unambiguous c (.MinScore (-4)) hc (by unfold InRange; decide) (h.trans (by decide +kernel))

/-- A run with options of every shape, and the text it prints, as in `C81_csp_output_unambiguous`. -/
example (nd : Char → Bool) : ∃ fs, Returns (gcCsp exHeap nd id [['d']] ['1'] ['2']
      { exclude := some [['7']], ordered := some [['1'], ['2']], noCycle := true, exactLength := some ['2'], minScore := some ['-', '4'] } fs)
    ("Constraint that will be applied to search are: \nNot(ContainsVertex(VertexId(7)))\nOrderedVertices([VertexId(1), VertexId(2)])\n".toList ++
     "Not(ContainsCycle)\nMinLength(2)\nMaxLength(2)\nMinScore(-4)\n".toList ++
     "Constrained shortest path from vertex 1 to vertex 2 with total cost of 1.\n1\n2\n".toList) := by
  have hm : ∀ cs, Mono (AStar.gcCsp exHeap (GraphCommand.applyCommands [.AddEdge 1 2] .new) 1 2 cs) := by
    intro cs
    unfold AStar.gcCsp AStar.constrainedShortestPath
    exact Mono.bind (Mono.lift _) fun s => Mono.find ConstrainedBestFirstIter.mono_next _ _
  have := gcCsp_of (H := exHeap) (order := id) (load_sample nd [.AddEdge 1 2]) (s := 1) (e := 2)
    (start := ['1']) (end_ := ['2']) (parseVertexId_iff.1 (by decide)) (parseVertexId_iff.1 (by decide))
    (a := { exclude := some [['7']], ordered := some [['1'], ['2']], noCycle := true, exactLength := some ['2'], minScore := some ['-', '4'] })
    ((hm _).returns (n := 5) (a := some ⟨⟨[1, 2]⟩, 1⟩) (by decide +kernel))
  refine ⟨sampleFS (Format.Gcmd.commandsText [.AddEdge 1 2]), ?_⟩
  convert this using 1
  decide +kernel

example : debugConstraint (.Or (.Xor (.MaxScore (-1)) (.MinLength 3)) (.And (.ContainsEdge ⟨1, 2⟩) .ContainsCycle)) =
    "Or(Xor(MaxScore(-1), MinLength(3)), And(ContainsEdge(Edge(VertexId(1), VertexId(2))), ContainsCycle))".toList := by decide +kernel

end Main
end GC
