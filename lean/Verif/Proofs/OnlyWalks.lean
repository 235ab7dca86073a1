/-
Lemmas for C147: the closures of the best-first searches are evaluated on paths of the graph only.
-/
import Verif.Proofs.OnlyReached
import Verif.Proofs.Iter
import Verif.Model.Search
import Verif.Spec.Chordless
namespace GC
open ShortestPath (forEach_agree loopAux_agree)

variable {g : DirectedGraph} {s : VertexId} {H : ScoredHeap} {f f' : ScoreFn}

/-- Two iterators that agree on the states that occur. -/
def AgreeOn {σ α : Type} (P : σ → Prop) (next next' : σ → Prog (Option (α × σ))) : Prop :=
  ∀ st, P st → next st = next' st ∧ ∀ n x st', next st n = .done (some (x, st')) → P st'

theorem AgreeOn.find {σ α : Type} {P : σ → Prop} {next next' : σ → Prog (Option (α × σ))} (h : AgreeOn P next next') (p : α → Bool)
    {st : σ} (hs : P st) : Prog.find p next st = Prog.find p next' st := by
  funext n
  refine loopAux_agree (P := P) (fun st hs => ?_) n n st hs
  obtain ⟨h1, h2⟩ := h st hs
  refine ⟨by rw [Prog.findStep, Prog.findStep, h1], fun n st' hd => ?_⟩
  rw [Prog.findStep, Prog.bind] at hd
  cases hn : next st n with
  | running => rw [hn] at hd; cases hd
  | panicked => rw [hn] at hd; cases hd
  | done r =>
    rw [hn] at hd
    cases r with
    | none => cases hd
    | some q =>
      obtain ⟨x, st1⟩ := q
      simp only [Run.bind] at hd
      split at hd
      · cases hd
      · cases hd; exact h2 n x _ hn

theorem AgreeOn.collect {σ α : Type} {P : σ → Prop} {next next' : σ → Prog (Option (α × σ))} (h : AgreeOn P next next')
    {st : σ} (hs : P st) : Prog.collect next st = Prog.collect next' st := by
  funext n
  refine loopAux_agree (P := fun q => P q.2) (fun q hs => ?_) n n ([], st) hs
  obtain ⟨h1, h2⟩ := h q.2 hs
  refine ⟨by rw [Prog.collectStep, Prog.collectStep, h1], fun n st' hd => ?_⟩
  rw [Prog.collectStep, Prog.bind] at hd
  cases hn : next q.2 n with
  | running => rw [hn] at hd; cases hd
  | panicked => rw [hn] at hd; cases hd
  | done r =>
    rw [hn] at hd
    cases r with
    | none => cases hd
    | some x => cases hd; exact h2 n x.1 x.2 hn

theorem chain_append {l : List VertexId} {u v : VertexId} (h : l.IsChain (Adj g)) (hl : l.getLast? = some u) (ha : Adj g u v) :
    (l ++ [v]).IsChain (Adj g) := by
  rw [List.isChain_append]
  refine ⟨h, .singleton v, fun x hx y hy => ?_⟩
  rw [hl] at hx
  simp only [Option.mem_def, Option.some.injEq, List.head?_cons] at hx hy
  subst hx hy
  exact ha

theorem chordless_append {l : List VertexId} {v : VertexId} (h : ChordlessFrom g s l) (hs : SimplePathFrom g s (l ++ [v]))
    (hn : ∀ u ∈ l.dropLast, ¬ Adj g u v) : ChordlessFrom g s (l ++ [v]) := by
  refine ⟨hs, fun i j a b hi hj hij => ?_⟩
  have hjl : j < (l ++ [v]).length := (List.getElem?_eq_some_iff.1 hj).1
  rw [List.length_append, List.length_singleton] at hjl
  rw [List.getElem?_append_left (by omega)] at hi
  rcases Nat.lt_or_eq_of_le (Nat.le_of_lt_succ hjl) with hlt | heq
  · rw [List.getElem?_append_left hlt] at hj
    exact h.2 i j a b hi hj hij
  · subst heq
    rw [List.getElem?_append_right (Nat.le_refl _)] at hj
    simp only [Nat.sub_self, List.getElem?_cons_zero, Option.some.injEq] at hj
    subst hj
    refine hn a (List.mem_of_getElem? (i := i) ?_)
    rw [List.getElem?_dropLast, if_pos (by omega), hi]

/-- Everything in the queue is a path from the start without shortcut; its vertices were visited, and so were the neighbours of all of
them except the last and, while `vid` is expanded, of `vid`. -/
def BestMid (g : DirectedGraph) (s : VertexId) (vid : Option VertexId) (st : BestFirstIter H) : Prop :=
  ∀ sp ∈ st.queue.items, ChordlessFrom g s sp.path.vertices ∧ (∀ v ∈ sp.path.vertices, v ∈ st.visited) ∧
    ∀ u ∈ sp.path.vertices.dropLast, some u ≠ vid → ∀ v, Adj g u v → v ∈ st.visited

/-- The same between two calls of `next`. -/
def BestInv (g : DirectedGraph) (s : VertexId) (st : BestFirstIter H) : Prop := BestMid g s none st

theorem visit_visited {wp : ScoredPath} {l : List VertexId} : ∀ {st st' : BestFirstIter H},
    Run.forEach (BestFirstIter.visit g f wp) st l = .done st' → (∀ v ∈ l, v ∈ st'.visited) ∧ ∀ v ∈ st.visited, v ∈ st'.visited := by
  induction l with
  | nil => intro st st' hd; cases hd; exact ⟨by simp, fun _ h => h⟩
  | cons v l ih =>
    intro st st' hd
    rw [Run.forEach, Run.bind_eq_done] at hd
    obtain ⟨st1, h1, h2⟩ := hd
    obtain ⟨h3, h4⟩ := ih h2
    have k : v ∈ st1.visited ∧ ∀ x ∈ st.visited, x ∈ st1.visited := by
      unfold BestFirstIter.visit at h1
      split at h1
      · rename_i hv
        cases h1
        exact ⟨by simpa using hv, fun _ h => h⟩
      · rw [Run.bind_eq_done] at h1
        obtain ⟨score, _, h1⟩ := h1
        cases h1
        exact ⟨List.mem_cons_self .., fun x hx => List.mem_cons_of_mem _ hx⟩
    refine ⟨fun x hx => ?_, fun x hx => h4 x (k.2 x hx)⟩
    rcases List.mem_cons.1 hx with rfl | hx
    · exact h4 _ k.1
    · exact h3 x hx

theorem best_agree (hw : WF g) (h : ∀ p : Path, ChordlessFrom g s p.vertices → f g p = f' g p) :
    AgreeOn (BestInv (H := H) g s) (BestFirstIter.next g f) (BestFirstIter.next g f') := by
  intro st hs
  unfold BestFirstIter.next
  cases hp : st.queue.pop with
  | none => exact ⟨rfl, fun n x st' hd => by cases hd⟩
  | some q =>
    obtain ⟨wp, queue⟩ := q
    have hperm := (MinPriorityQueue.pop_some hp).1
    obtain ⟨hcl, hvis, hout⟩ := hs wp (hperm.mem_iff.2 (List.mem_cons_self ..))
    obtain ⟨hchain, hhead, hnd⟩ := hcl.1
    cases hl : wp.path.last with
    | none => exact ⟨by simp only [hl, Run.unwrap, Run.bind], fun n x st' hd => by simp [Prog.lift, hl, Run.unwrap, Run.bind] at hd⟩
    | some vid =>
      have hq : BestMid (H := H) g s (some vid) ⟨queue, st.visited⟩ := fun sp hsp =>
        have h0 := hs sp (hperm.mem_iff.2 (List.mem_cons_of_mem _ hsp))
        ⟨h0.1, h0.2.1, fun u hu _ => h0.2.2 u hu (by simp)⟩
      have hsplit : wp.path.vertices = wp.path.vertices.dropLast ++ [vid] := (List.dropLast_append_getLast? vid hl).symm
      obtain ⟨h1, h2⟩ := forEach_agree (b := BestFirstIter.visit g f wp) (b' := BestFirstIter.visit g f' wp)
        (P := fun st => BestMid (H := H) g s (some vid) st ∧ (∀ v ∈ wp.path.vertices, v ∈ st.visited) ∧
          ∀ u ∈ wp.path.vertices.dropLast, ∀ v, Adj g u v → v ∈ st.visited) (l := g.outs vid) (by
          rintro v hv st ⟨hs, hvis, hout⟩
          unfold BestFirstIter.visit
          split
          · exact ⟨rfl, fun st' hd => by cases hd; exact ⟨hs, hvis, hout⟩⟩
          · rename_i hnv
            have hnv : v ∉ st.visited := by simpa using hnv
            have hsimple : SimplePathFrom g s (wp.path.vertices ++ [v]) := by
              refine ⟨chain_append hchain hl (hw.mem_outs'.1 hv), ?_, ?_⟩
              · cases hx : wp.path.vertices with
                | nil => rw [hx] at hhead; cases hhead
                | cons a l => rw [hx] at hhead; exact hhead
              · rw [List.nodup_append]
                refine ⟨hnd, by simp, fun a ha b hb => ?_⟩
                rw [List.mem_singleton.1 hb]
                rintro rfl
                exact hnv (hvis a ha)
            have hch : ChordlessFrom g s (wp.path.append v).vertices :=
              chordless_append hcl hsimple fun u hu ha => hnv (hout u hu v ha)
            refine ⟨by rw [h _ hch], fun st' hd => ?_⟩
            rw [Run.bind_eq_done] at hd
            obtain ⟨score, _, hd⟩ := hd
            cases hd
            refine ⟨fun sp hsp => ?_, fun v hv => List.mem_cons_of_mem _ (hvis v hv), fun u hu x hx => List.mem_cons_of_mem _ (hout u hu x hx)⟩
            rcases List.mem_cons.1 ((MinPriorityQueue.items_push _ _).mem_iff.1 hsp) with rfl | hsp
            · refine ⟨hch, fun x hx => ?_, fun u hu hne x hx => ?_⟩
              · rcases List.mem_append.1 hx with hx | hx
                · exact List.mem_cons_of_mem _ (hvis x hx)
                · rw [List.mem_singleton.1 hx]; exact List.mem_cons_self ..
              · rw [show (wp.path.append v).vertices = wp.path.vertices ++ [v] from rfl, List.dropLast_concat, hsplit] at hu
                rcases List.mem_append.1 hu with hu | hu
                · exact List.mem_cons_of_mem _ (hout u hu x hx)
                · rw [List.mem_singleton.1 hu] at hne
                  exact absurd rfl hne
            · have h0 := hs sp hsp
              exact ⟨h0.1, fun x hx => List.mem_cons_of_mem _ (h0.2.1 x hx), fun u hu hne x hx => List.mem_cons_of_mem _ (h0.2.2 u hu hne x hx)⟩)
        ⟨queue, st.visited⟩ ⟨hq, hvis, fun u hu => hout u hu (by simp)⟩
      refine ⟨by simp only [hl, Run.unwrap, Run.bind, h1], fun n x st' hd => ?_⟩
      simp only [Prog.lift, hl, Run.unwrap] at hd
      rw [Run.bind_done, Run.bind_eq_done] at hd
      obtain ⟨st1, h3, hd⟩ := hd
      cases hd
      have h4 := (h2 _ h3).1
      have h5 := (visit_visited h3).1
      intro sp hsp
      obtain ⟨k1, k2, k3⟩ := h4 sp hsp
      refine ⟨k1, k2, fun u hu _ x hx => ?_⟩
      by_cases hu' : u = vid
      · subst hu'; exact h5 x (hw.mem_outs'.2 hx)
      · exact k3 u hu (by simpa using hu') x hx

theorem best_from (h : ∀ p : Path, ChordlessFrom g s p.vertices → f g p = f' g p) :
    BestFirstIter.from_ (H := H) g f s = BestFirstIter.from_ g f' s ∧
      ∀ st, BestFirstIter.from_ (H := H) g f s = .done st → BestInv g s st := by
  have hsimple : ChordlessFrom g s (Path.empty.append s).vertices := by
    refine ⟨⟨.singleton s, rfl, List.nodup_singleton s⟩, fun i j u v _ hj hij => ?_⟩
    have := (List.getElem?_eq_some_iff.1 hj).1
    simp only [Path.append, Path.empty, List.nil_append, List.length_singleton] at this
    omega
  unfold BestFirstIter.from_
  refine ⟨by rw [h _ hsimple], fun st hd => ?_⟩
  rw [Run.bind_eq_done] at hd
  obtain ⟨score, _, hd⟩ := hd
  cases hd
  intro sp hsp
  have hsp := (MinPriorityQueue.items_push _ _).mem_iff.1 hsp
  rw [show (BestFirstIter.empty (H := H)).queue = .new from rfl, MinPriorityQueue.items_new, List.mem_singleton] at hsp
  subst hsp
  exact ⟨hsimple, fun v hv => by simpa [Path.append, Path.empty, BestFirstIter.empty] using hv,
    fun u hu => by simp [Path.append, Path.empty] at hu⟩

theorem best_item {st st' : BestFirstIter H} {n : Nat} {x : ScoredPath} (hs : BestInv g s st)
    (hd : BestFirstIter.next g f st n = .done (some (x, st'))) : ChordlessFrom g s x.path.vertices := by
  unfold BestFirstIter.next at hd
  cases hp : st.queue.pop with
  | none => rw [hp] at hd; cases hd
  | some q =>
    rw [hp] at hd
    simp only [Prog.lift] at hd
    rw [Run.bind_eq_done] at hd
    obtain ⟨vid, _, hd⟩ := hd
    rw [Run.bind_eq_done] at hd
    obtain ⟨st1, _, hd⟩ := hd
    cases hd
    exact (hs _ ((MinPriorityQueue.pop_some hp).1.mem_iff.2 (List.mem_cons_self ..))).1

theorem loopAux_result {σ β : Type} {b : σ → Prog (σ ⊕ β)} {P : σ → Prop} {Q : β → Prop}
    (h : ∀ s n r, P s → b s n = .done r → (∀ s', r = .inl s' → P s') ∧ ∀ x, r = .inr x → Q x) (fuel n : Nat) (s : σ) (hs : P s) (x : β)
    (hd : Prog.loopAux b fuel n s = .done x) : Q x := by
  induction n generalizing s with
  | zero => cases hd
  | succ n ih =>
    rw [Prog.loopAux] at hd
    cases hb : b s fuel with
    | running => rw [hb] at hd; cases hd
    | panicked => rw [hb] at hd; cases hd
    | done r =>
      rw [hb] at hd
      cases r with
      | inl s' => exact ih s' ((h s fuel _ hs hb).1 s' rfl) hd
      | inr y => cases hd; exact (h s fuel _ hs hb).2 _ rfl

theorem best_collect (hw : WF g) {st : BestFirstIter H} (hs : BestInv g s st) {out : List ScoredPath} {n : Nat}
    (hd : Prog.collect (BestFirstIter.next g f) st n = .done out) : ∀ x ∈ out, ChordlessFrom g s x.path.vertices := by
  refine loopAux_result (P := fun q : List ScoredPath × BestFirstIter H => BestInv g s q.2 ∧ ∀ x ∈ q.1, ChordlessFrom g s x.path.vertices)
    (Q := fun out => ∀ x ∈ out, ChordlessFrom g s x.path.vertices) ?_ n n ([], st) ⟨hs, by simp⟩ out hd
  rintro q n r ⟨hq, hx⟩ hr
  rw [Prog.collectStep, Prog.bind, Run.bind_eq_done] at hr
  obtain ⟨r1, h1, h2⟩ := hr
  cases r1 with
  | none => cases h2; exact ⟨fun _ h => (by cases h), fun y hy => by cases hy; exact hx⟩
  | some p =>
    cases h2
    refine ⟨fun y hy => ?_, fun _ h => by cases h⟩
    cases hy
    refine ⟨(best_agree (f := f) (f' := f) hw (fun _ _ => rfl) _ hq).2 n p.1 p.2 h1, fun x hxm => ?_⟩
    rcases List.mem_append.1 hxm with hxm | hxm
    · exact hx x hxm
    · rw [List.mem_singleton.1 hxm]; exact best_item hq h1

theorem best_find (hw : WF g) {st : BestFirstIter H} (hs : BestInv g s st) {p : ScoredPath → Bool} {sp : ScoredPath} {n : Nat}
    (hd : Prog.find p (BestFirstIter.next g f) st n = .done (some sp)) : ChordlessFrom g s sp.path.vertices := by
  refine loopAux_result (P := BestInv (H := H) g s) (Q := fun r => ∀ sp, r = some sp → ChordlessFrom g s sp.path.vertices) ?_ n n st hs
    (some sp) hd sp rfl
  intro q n r hq hr
  rw [Prog.findStep, Prog.bind, Run.bind_eq_done] at hr
  obtain ⟨r1, h1, h2⟩ := hr
  cases r1 with
  | none => cases h2; exact ⟨fun _ h => (by cases h), fun y hy sp hsp => by cases hy; cases hsp⟩
  | some x =>
    obtain ⟨x, st1⟩ := x
    simp only at h2
    split at h2
    · cases h2
      refine ⟨fun _ h => (by cases h), fun y hy sp hsp => ?_⟩
      cases hy
      cases hsp
      exact best_item hq h1
    · cases h2
      refine ⟨fun y hy => ?_, fun _ h => by cases h⟩
      cases hy
      exact (best_agree (f := f) (f' := f) hw (fun _ _ => rfl) _ hq).2 n x _ h1

/-- Everything in the queue is a walk from the start. -/
def WalkInv (g : DirectedGraph) (s : VertexId) (st : ConstrainedBestFirstIter H) : Prop :=
  ∀ sp ∈ st.queue.items, sp.path.vertices.IsChain (Adj g) ∧ sp.path.vertices.head? = some s

theorem constrained_agree (hw : WF g) (h : ∀ t (p : Path), WalkFromTo g s t p.vertices → f g p = f' g p) (cs : List Constraint) :
    AgreeOn (WalkInv (H := H) g s) (ConstrainedBestFirstIter.next g f cs) (ConstrainedBestFirstIter.next g f' cs) := by
  intro st hs
  unfold ConstrainedBestFirstIter.next
  cases hp : st.queue.pop with
  | none => exact ⟨rfl, fun n x st' hd => by cases hd⟩
  | some q =>
    obtain ⟨wp, queue⟩ := q
    have hperm := (MinPriorityQueue.pop_some hp).1
    obtain ⟨hchain, hhead⟩ := hs wp (hperm.mem_iff.2 (List.mem_cons_self ..))
    have hq : WalkInv (H := H) g s ⟨queue⟩ := fun sp hsp => hs sp (hperm.mem_iff.2 (List.mem_cons_of_mem _ hsp))
    cases hl : wp.path.last with
    | none => exact ⟨by simp only [hl, Run.unwrap, Run.bind], fun n x st' hd => by simp [Prog.lift, hl, Run.unwrap, Run.bind] at hd⟩
    | some vid =>
      obtain ⟨h1, h2⟩ := forEach_agree (b := ConstrainedBestFirstIter.visit g f cs wp) (b' := ConstrainedBestFirstIter.visit g f' cs wp)
        (P := WalkInv (H := H) g s) (l := g.outs vid) (by
          intro v hv st hs
          unfold ConstrainedBestFirstIter.visit
          have hc := chain_append hchain hl (hw.mem_outs'.1 hv)
          have hh : (wp.path.append v).vertices.head? = some s := by
            show (wp.path.vertices ++ [v]).head? = _
            cases hx : wp.path.vertices with
            | nil => rw [hx] at hhead; cases hhead
            | cons a l => rw [hx] at hhead; exact hhead
          refine ⟨by rw [h v (wp.path.append v) ⟨hc, hh, by simp [Path.append]⟩], fun st' hd => ?_⟩
          rw [Run.bind_eq_done] at hd
          obtain ⟨score, _, hd⟩ := hd
          split at hd
          · cases hd
            intro sp hsp
            rcases List.mem_cons.1 ((MinPriorityQueue.items_push _ _).mem_iff.1 hsp) with rfl | hsp
            · exact ⟨hc, hh⟩
            · exact hs sp hsp
          · cases hd; exact hs) ⟨queue⟩ hq
      refine ⟨by simp only [hl, Run.unwrap, Run.bind, h1], fun n x st' hd => ?_⟩
      simp only [Prog.lift, hl, Run.unwrap] at hd
      rw [Run.bind_done, Run.bind_eq_done] at hd
      obtain ⟨st1, h3, hd⟩ := hd
      cases hd
      exact h2 _ h3

theorem constrained_from (h : ∀ t (p : Path), WalkFromTo g s t p.vertices → f g p = f' g p) :
    ConstrainedBestFirstIter.from_ (H := H) g f s = ConstrainedBestFirstIter.from_ g f' s ∧
      ∀ st, ConstrainedBestFirstIter.from_ (H := H) g f s = .done st → WalkInv g s st := by
  have hwalk : WalkFromTo g s s (Path.empty.append s).vertices := ⟨.singleton s, rfl, rfl⟩
  unfold ConstrainedBestFirstIter.from_
  refine ⟨by rw [h _ _ hwalk], fun st hd => ?_⟩
  rw [Run.bind_eq_done] at hd
  obtain ⟨score, _, hd⟩ := hd
  cases hd
  intro sp hsp
  have hsp := (MinPriorityQueue.items_push _ _).mem_iff.1 hsp
  rw [MinPriorityQueue.items_new, List.mem_singleton] at hsp
  subst hsp
  exact ⟨hwalk.1, hwalk.2.1⟩

end GC
