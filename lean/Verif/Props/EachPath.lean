/-
C147, the converse: every path without shortcut can matter.
-/
import Verif.Props.OnlyWalks
namespace GC
open AStar DirectedGraph

/-- If the beginnings of a path without shortcut have negative scores and all other paths have not, best-first search follows the path. -/
theorem follows {g : DirectedGraph} {s : VertexId} {p : List VertexId} (hp : ChordlessFrom g s p) {f : List VertexId → Int}
    (hneg : ∀ q, f q < 0 ↔ q <+: p) {ps : List (List VertexId)} (ho : BestFirstOrder g s f ps) :
    ∀ k, k < p.length → ps[k]? = some (p.take (k + 1)) := by
  obtain ⟨⟨hchain, hhead, hnd⟩, hcl⟩ := hp
  intro k
  induction k using Nat.strongRecOn with
  | _ k ih =>
    intro hk
    have ih : ∀ j, j < k → ps[j]? = some (p.take (j + 1)) := fun j hj => ih j hj (by omega)
    have htake : ∀ j q, (ps.take k)[j]? = some q → j < k ∧ q = p.take (j + 1) := by
      intro j q hq
      rw [List.getElem?_take] at hq
      split at hq
      · rename_i hj
        rw [ih j hj] at hq
        cases hq
        exact ⟨hj, rfl⟩
      · cases hq
    have hlast : ∀ j, j < p.length → (p.take (j + 1)).getLast? = p[j]? := by
      intro j hj
      rw [List.getLast?_eq_getElem?, List.length_take, Nat.min_eq_left (by omega), List.getElem?_take]
      simp
    have hfound : Found g s (ps.take k) (p.take (k + 1)) := by
      cases k with
      | zero =>
        left
        cases p with
        | nil => simp at hk
        | cons a l => simp only [List.head?_cons, Option.some.injEq] at hhead; subst hhead; simp
      | succ i =>
        right
        refine ⟨i, p.take (i + 1), p[i], p[i + 1], ?_, ?_, ?_, ?_, ?_, ?_⟩
        · rw [List.getElem?_take, if_pos (by omega), ih i (by omega)]
        · rw [hlast i (by omega), List.getElem?_eq_getElem]
        · exact (List.isChain_iff_getElem.1 hchain) i (by omega)
        · intro he
          have h0 : p[0]'(by omega) = s := by
            rw [List.head?_eq_getElem?, List.getElem?_eq_getElem (by omega)] at hhead
            exact Option.some.inj hhead
          have := (List.Nodup.getElem_inj_iff hnd).1 (he.trans h0.symm)
          omega
        · intro j q w hj hq hw
          obtain ⟨_, rfl⟩ := htake j q hq
          rw [hlast j (by omega)] at hw
          exact hcl j (i + 1) w _ hw (List.getElem?_eq_getElem hk) (by omega)
        · rw [List.take_succ_eq_append_getElem hk]
    have hnot : p.take (k + 1) ∉ ps.take k := by
      intro hm
      obtain ⟨j, hj⟩ := List.mem_iff_getElem?.1 hm
      obtain ⟨h1, h2⟩ := htake j _ hj
      have := congrArg List.length h2
      rw [List.length_take, List.length_take] at this
      omega
    have hmem : p.take (k + 1) ∈ ps := by
      refine ho.all _ ?_
      have := Found.mono (qs := ps.drop k) hfound
      rwa [List.take_append_drop] at this
    have hlen : k < ps.length := by
      by_contra hc
      rw [List.take_of_length_le (by omega)] at hnot
      exact hnot hmem
    obtain ⟨h1, h2, h3⟩ := ho.best k ps[k] (List.getElem?_eq_getElem hlen)
    have hpre : ps[k] <+: p := (hneg _).1 (lt_of_le_of_lt (h3 _ hfound hnot) ((hneg _).2 (List.take_prefix _ _)))
    rw [List.getElem?_eq_getElem hlen]
    have hq := List.prefix_iff_eq_take.1 hpre
    have hle : ps[k].length ≤ k + 1 ∧ 0 < ps[k].length := by
      rcases h1 with h1 | ⟨i, q, u, v, hi, _, _, _, _, h1⟩
      · rw [h1]; simp
      · obtain ⟨hi, rfl⟩ := htake i q hi
        rw [h1, List.length_append, List.length_take, List.length_singleton]
        omega
    have hge : k + 1 ≤ ps[k].length := by
      by_contra hc
      refine h2 (List.mem_iff_getElem?.2 ⟨ps[k].length - 1, ?_⟩)
      rw [List.getElem?_take, if_pos (by omega), ih _ (by omega), Nat.sub_add_cancel (by omega), ← hq]
    rw [hq, show ps[k].length = k + 1 by omega]

/-- C147: the answer of `best_iter_from` depends on the score of a path exactly if it is a path from the start without shortcut. -/
theorem C147_each_path (H : ScoredHeap) (g : DirectedGraph) (h : Built g) (s : VertexId) (p : Path) :
    (∀ f f' : ScoreFn, (∀ q, q ≠ p → f g q = f' g q) →
      Prog.bind (Prog.lift (BestFirstIter.from_ (H := H) g f s)) (fun it => Prog.collect (BestFirstIter.next g f) it) =
      Prog.bind (Prog.lift (BestFirstIter.from_ (H := H) g f' s)) (fun it => Prog.collect (BestFirstIter.next g f') it)) ↔
    ¬ ChordlessFrom g s p.vertices := by
  classical
  constructor
  · intro hall hp
    let f (c : Int) (q : Path) : Int := if q = p then c else if q.vertices <+: p.vertices then -1 else 0
    let sc (c : Int) : ScoreFn := fun _ q => .done (f c q)
    have run : ∀ c < 0, ∃ out, Returns (Prog.bind (Prog.lift (BestFirstIter.from_ (H := H) g (sc c) s))
        fun it => Prog.collect (BestFirstIter.next g (sc c)) it) out ∧ (⟨p, c⟩ : ScoredPath) ∈ out ∧ ∀ x ∈ out, x.path = p → x.score = c := by
      intro c hc
      have hf : ScoresBy g s (sc c) (f c) := fun _ _ => rfl
      obtain ⟨it, xs, h1, h2, h3, h4, _, h5⟩ := best_drains_order (H := H) h.wf hf
      have ho := h5.order h3 h4
      have hneg : ∀ q, f c ⟨q⟩ < 0 ↔ q <+: p.vertices := by
        intro q
        show (if (⟨q⟩ : Path) = p then c else if q <+: p.vertices then -1 else 0) < 0 ↔ _
        split
        · rename_i he
          subst he
          simp [hc]
        · split
          · rename_i hq; simp [hq]
          · rename_i hq; simp [hq]
      have hscore : ∀ x ∈ xs, x.path = p → x.score = c := fun x hx he => by
        rw [(h3 x hx).2, he]
        exact if_pos rfl
      have hlen : 0 < p.vertices.length := by
        have := hp.1.2.1
        cases hv : p.vertices with
        | nil => rw [hv] at this; cases this
        | cons a l => simp
      have hat := follows hp hneg ho (p.vertices.length - 1) (by omega)
      rw [Nat.sub_add_cancel hlen, List.take_length] at hat
      obtain ⟨x, hx, he⟩ := List.mem_map.1 (List.mem_of_getElem? hat)
      have he' : x.path = p := by
        cases hxp : x.path with
        | mk l => rw [hxp] at he; cases p; cases he; rfl
      refine ⟨xs, ?_, ?_, hscore⟩
      · rw [h1]
        exact h2.collect
      · have := hscore x hx he'
        have e : x = ⟨p, c⟩ := by cases x; simp_all
        rwa [← e]
    obtain ⟨out, hr, hm, _⟩ := run (-1) (by decide)
    obtain ⟨out', hr', _, hs'⟩ := run (-2) (by decide)
    have heq := hall (sc (-1)) (sc (-2)) fun q hq => by
      show Run.done (f _ q) = Run.done (f _ q)
      simp only [f, if_neg hq]
    rw [heq] at hr
    rw [hr.unique hr'] at hm
    exact absurd (hs' _ hm rfl) (show ¬ (-1 : Int) = -2 by decide)
  · intro hn f f' hf
    have hf' : ∀ q : Path, ChordlessFrom g s q.vertices → f g q = f' g q := fun q hq => hf q fun he => hn (he ▸ hq)
    obtain ⟨h1, h2⟩ := C147_iteration H g h s f f' hf'
    funext n
    simp only [Prog.bind, Prog.lift]
    rw [← h1]
    cases hi : BestFirstIter.from_ (H := H) g f s with
    | running => rfl
    | panicked => rfl
    | done it => rw [Run.bind_done, Run.bind_done, h2 it hi]

/-- In `exShortcut` the score of 1, 3, 4 matters, that of 1, 2, 3 does not. -/
example : ChordlessFrom exShortcut 1 [1, 3, 4] ∧ ¬ ChordlessFrom exShortcut 1 [1, 2, 3] := by
  refine ⟨⟨⟨?_, rfl, by decide⟩, ?_⟩, fun h => h.2 0 2 1 3 rfl rfl (by decide) (by unfold Adj; decide)⟩
  · simp only [List.isChain_cons_cons, Adj]
    exact ⟨by decide, by decide, .singleton 4⟩
  · intro i j u v hi hj hij
    have := (List.getElem?_eq_some_iff.1 hj).1
    simp only [List.length_cons, List.length_nil] at this
    obtain rfl : i = 0 := by omega
    obtain rfl : j = 2 := by omega
    cases hi
    cases hj
    unfold Adj
    decide

end GC
