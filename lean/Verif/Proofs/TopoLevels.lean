/- Proofs about the order in which the topological sort lists the vertices. -/
import Verif.Proofs.Topo
namespace GC
open DirectedGraph
namespace TopoSort
variable {g : DirectedGraph}

theorem _root_.GC.LongestWalkTo.unique {v : VertexId} {m n : Nat} (h1 : LongestWalkTo g v m) (h2 : LongestWalkTo g v n) : m = n := by
  obtain ⟨⟨a, ha, ha2, ha3⟩, hA⟩ := h1
  obtain ⟨⟨b, hb, hb2, hb3⟩, hB⟩ := h2
  have := hA b hb hb2
  have := hB a ha ha2
  omega

/-- A vertex without predecessor. -/
theorem longest_start {v : VertexId} (h : ∀ u, ¬ Adj g u v) : LongestWalkTo g v 0 := by
  refine ⟨⟨[v], ⟨by simp, by simp⟩, by simp, rfl⟩, fun w hw hl => ?_⟩
  obtain ⟨w', rfl⟩ := List.getLast?_eq_some_iff.1 hl
  rcases List.eq_nil_or_concat w' with rfl | ⟨w'', u, rfl⟩
  · simp
  · exfalso
    refine h u ?_
    have := hw.2
    rw [List.isChain_append] at this
    exact this.2.2 u (by simp) v (by simp)

/-- A vertex whose predecessors are not deeper than one of them. -/
theorem longest_next {x v : VertexId} {m : Nat} (hx : LongestWalkTo g x m) (hxv : Adj g x v)
    (h : ∀ u, Adj g u v → ∃ n, LongestWalkTo g u n ∧ n ≤ m) : LongestWalkTo g v (m + 1) := by
  constructor
  · obtain ⟨⟨w, hw, hl, hlen⟩, _⟩ := hx
    refine ⟨w ++ [v], ⟨by simp, ?_⟩, by simp, by simp [hlen]⟩
    rw [List.isChain_append]
    refine ⟨hw.2, by simp, ?_⟩
    intro a ha b hb
    rw [hl] at ha
    simp only [Option.mem_def, Option.some.injEq, List.head?_cons] at ha hb
    subst ha; subst hb
    exact hxv
  · intro w hw hl
    obtain ⟨w', rfl⟩ := List.getLast?_eq_some_iff.1 hl
    rcases List.eq_nil_or_concat w' with rfl | ⟨w'', u, rfl⟩
    · simp
    · have hc := hw.2
      rw [List.isChain_append] at hc
      have huv : Adj g u v := hc.2.2 u (by simp) v (by simp)
      obtain ⟨n, hn, hnm⟩ := h u huv
      have := hn.2 _ ⟨by simp, hc.1⟩ (by simp)
      simp only [List.length_append, List.length_singleton]
      simp only [List.concat_eq_append, List.length_append, List.length_singleton] at this ⊢
      omega

/-- The order of the levels, for vertices that have one. -/
def NotDeeper (g : DirectedGraph) (a b : VertexId) : Prop := ∀ m n, LongestWalkTo g a m → LongestWalkTo g b n → m ≤ n

/-- The vertices listed or waiting are ordered by level, and those waiting are at most one level apart. -/
structure Levels (g : DirectedGraph) (s : State) : Prop where
  some : ∀ v ∈ s.res ++ s.startVertices, ∃ n, LongestWalkTo g v n
  sorted : (s.res ++ s.startVertices).Pairwise (NotDeeper g)
  near : ∀ x rest, s.startVertices = x :: rest → ∀ y ∈ rest, ∀ m n, LongestWalkTo g x m → LongestWalkTo g y n → n ≤ m + 1

theorem foldl_start (es : List Edge) (s : State) :
    ∃ new, (es.foldl (removeChild g) s).startVertices = s.startVertices ++ new ∧ ∀ v ∈ new, ∃ e ∈ es, e.dst = v := by
  induction es generalizing s with
  | nil => exact ⟨[], by simp, by simp⟩
  | cons e es ih =>
    obtain ⟨new, h1, h2⟩ := ih (removeChild g s e)
    have h3 : ∃ new1, (removeChild g s e).startVertices = s.startVertices ++ new1 ∧ ∀ v ∈ new1, v = e.dst := by
      unfold removeChild
      dsimp only
      split
      · exact ⟨[e.dst], rfl, by simp⟩
      · exact ⟨[], by simp, by simp⟩
    obtain ⟨new1, h4, h5⟩ := h3
    refine ⟨new1 ++ new, by rw [List.foldl_cons, h1, h4, List.append_assoc], ?_⟩
    intro v hv
    rcases List.mem_append.1 hv with hv | hv
    · exact ⟨e, by simp, (h5 v hv).symm⟩
    · obtain ⟨e', he', hd⟩ := h2 v hv
      exact ⟨e', by simp [he'], hd⟩

theorem Levels.init (hw : WF g) : Levels g ⟨[], findStartVertices g, []⟩ := by
  have hz : ∀ v ∈ findStartVertices g, LongestWalkTo g v 0 := by
    intro v hv
    have := ((inv_init hw).mem v).1 (by simpa using hv)
    exact longest_start fun u hu => by simpa using this.2 u hu
  refine ⟨fun v hv => ⟨0, hz v (by simpa using hv)⟩, ?_, ?_⟩
  · refine List.pairwise_of_forall_mem_list fun a ha b hb m n hm hn => ?_
    rw [hm.unique (hz a (by simpa using ha))]
    omega
  · intro x rest hq y hy m n _ hn
    dsimp only at hq
    rw [hn.unique (hz y (by rw [hq]; simp [hy]))]
    omega

theorem Levels.next (hw : WF g) {s : State} (hi : Inv g s) (h : Levels g s) {x : VertexId} {rest : List VertexId}
    (hq : s.startVertices = x :: rest) : Levels g (nextState g s x rest) := by
  obtain ⟨hi', hres⟩ := hi.next hw hq
  obtain ⟨new, hnew, hdst⟩ := foldl_start (g := g) (children g { s with res := s.res ++ [x], startVertices := rest } x)
    { s with res := s.res ++ [x], startVertices := rest }
  have hst : (nextState g s x rest).startVertices = rest ++ new := hnew
  have hall : (nextState g s x rest).res ++ (nextState g s x rest).startVertices = (s.res ++ s.startVertices) ++ new := by
    rw [hres, hst, hq]
    simp
  obtain ⟨m, hm⟩ := h.some x (by rw [hq]; simp)
  have hsorted := h.sorted
  -- everything listed before is not deeper than `x`
  have hbefore : ∀ u ∈ s.res ++ [x], ∃ n, LongestWalkTo g u n ∧ n ≤ m := by
    intro u hu
    rcases List.mem_append.1 hu with hu | hu
    · obtain ⟨n, hn⟩ := h.some u (List.mem_append_left _ hu)
      exact ⟨n, hn, (List.pairwise_append.1 hsorted).2.2 u hu x (by rw [hq]; simp) n m hn hm⟩
    · rw [List.mem_singleton] at hu
      exact ⟨m, by rw [hu]; exact hm, le_refl _⟩
  -- the new vertices are one level deeper than `x`
  have hdeep : ∀ v ∈ new, LongestWalkTo g v (m + 1) := by
    intro v hv
    obtain ⟨e, he, hd⟩ := hdst v hv
    have he := (List.mem_filter.1 he).1
    obtain ⟨h1, h2⟩ := hw.mem_outbound.1 he
    refine longest_next hm (by unfold Adj; rw [← h2, ← hd]; exact h1) fun u hu => ?_
    refine hbefore u ?_
    have := ((hi'.mem v).1 (by rw [hall]; simp [hv])).2 u hu
    have := ((hi'.rm _).1 this).2
    rwa [hres] at this
  have hold : ∀ u ∈ s.res ++ s.startVertices, ∀ n, LongestWalkTo g u n → n ≤ m + 1 := by
    intro u hu n hn
    rw [hq, show s.res ++ x :: rest = (s.res ++ [x]) ++ rest by simp] at hu
    rcases List.mem_append.1 hu with hu | hu
    · obtain ⟨n', hn', hle⟩ := hbefore u hu
      rw [hn.unique hn']
      omega
    · exact h.near x rest hq u hu m n hm hn
  refine ⟨?_, ?_, ?_⟩
  · rw [hall]
    intro v hv
    rcases List.mem_append.1 hv with hv | hv
    · exact h.some v hv
    · exact ⟨_, hdeep v hv⟩
  · rw [hall, List.pairwise_append]
    refine ⟨hsorted, List.pairwise_of_forall_mem_list fun a ha b hb p q hp hq' => ?_, fun a ha b hb p q hp hq' => ?_⟩
    · rw [hp.unique (hdeep a ha), hq'.unique (hdeep b hb)]
    · rw [hq'.unique (hdeep b hb)]
      exact hold a ha p hp
  · intro y ys hy z hz p q hp hq'
    rw [hst] at hy
    cases rest with
    | nil =>
      rw [List.nil_append] at hy
      rw [hp.unique (hdeep y (by rw [hy]; simp)), hq'.unique (hdeep z (by rw [hy]; simp [hz]))]
      omega
    | cons r rest =>
      rw [List.cons_append, List.cons.injEq] at hy
      obtain ⟨rfl, rfl⟩ := hy
      -- the new first vertex is not less deep than `x`
      have h1 : m ≤ p := by
        have := (List.pairwise_append.1 hsorted).2.1
        rw [hq, List.pairwise_cons] at this
        exact this.1 r (by simp) m p hm hp
      rcases List.mem_append.1 hz with hz | hz
      · have := h.near x _ hq z (by simp [hz]) m q hm hq'
        omega
      · rw [hq'.unique (hdeep z hz)]
        omega

theorem loop_ends_levels (hw : WF g) :
    ∃ s, Returns (Prog.loop (step g) ⟨[], findStartVertices g, []⟩) s ∧ Levels g s ∧ s.startVertices = [] := by
  have key : ∃ s, Returns (Prog.loop (step g) ⟨[], findStartVertices g, []⟩) s ∧ (Inv g s ∧ Levels g s) ∧ s.startVertices = [] := by
    refine returns_loop_of_measure (fun s => Inv g s ∧ Levels g s) (fun s => (Inv g s ∧ Levels g s) ∧ s.startVertices = [])
      (fun s => g.vertices.length - s.res.length) ?_ _ ⟨inv_init hw, Levels.init hw⟩
    rintro s ⟨h, hl⟩
    unfold step
    cases hq : s.startVertices with
    | nil => exact .inr ⟨s, Returns.ret _, ⟨h, hl⟩, hq⟩
    | cons start rest =>
      left
      obtain ⟨h1, h2⟩ := h.next hw hq
      refine ⟨_, Returns.ret _, ⟨h1, hl.next hw h hq⟩, ?_⟩
      have := h1.res_length
      unfold nextState at h2 this
      rw [h2] at this ⊢
      simp only [List.length_append, List.length_singleton] at this ⊢
      omega
  obtain ⟨s, h1, h2, h3⟩ := key
  exact ⟨s, h1, h2.2, h3⟩

end TopoSort
end GC
