/-
Lemmas for C146: the weighted searches evaluate weights of edges that leave a reached vertex only.
-/
import Verif.Proofs.DagPaths
import Verif.Proofs.Graph
namespace GC
namespace ShortestPath
open TopoSort

variable {g : DirectedGraph} {s : VertexId}

/-- Every vertex with a score can be reached from `s`. -/
def Reached (g : DirectedGraph) (s : VertexId) (sc : Scores) : Prop := ∀ v, (HMap.get? sc v).isSome = true → Reach g s v

theorem reached_initial : Reached g s (initialScores s) := by
  intro v hv
  rw [initialScores, HMap.get?_insert] at hv
  by_cases h : v = s
  · subst h; exact .refl
  · simp [h] at hv

theorem Reached.insert {sc : Scores} (h : Reached g s sc) {e : Edge} (he : g.containsEdge e = true)
    (hs : (HMap.get? sc e.src).isSome = true) (sp : ScoredPath) : Reached g s (HMap.insert sc e.dst sp) := by
  intro v hv
  rw [HMap.get?_insert] at hv
  by_cases hd : v = e.dst
  · subst hd; exact (h _ hs).tail he
  · rw [if_neg hd] at hv; exact h v hv

/-- Two loops whose bodies agree on the states that occur agree. -/
theorem forEach_agree {σ α : Type} {b b' : σ → α → Run σ} {P : σ → Prop} {l : List α}
    (h : ∀ a ∈ l, ∀ s, P s → b s a = b' s a ∧ ∀ s', b s a = .done s' → P s') (s : σ) (hs : P s) :
    Run.forEach b s l = Run.forEach b' s l ∧ ∀ s', Run.forEach b s l = .done s' → P s' := by
  induction l generalizing s with
  | nil => exact ⟨rfl, fun s' he => by cases he; exact hs⟩
  | cons a l ih =>
    obtain ⟨h1, h2⟩ := h a (by simp) s hs
    rw [Run.forEach, Run.forEach, ← h1]
    cases hb : b s a with
    | running => exact ⟨rfl, fun s' he => by cases he⟩
    | panicked => exact ⟨rfl, fun s' he => by cases he⟩
    | done s1 => exact ih (fun a ha => h a (by simp [ha])) s1 (h2 s1 hb)

theorem loopAux_agree {σ β : Type} {b b' : σ → Prog (σ ⊕ β)} {P : σ → Prop}
    (h : ∀ s, P s → b s = b' s ∧ ∀ n s', b s n = .done (.inl s') → P s') (fuel n : Nat) (s : σ) (hs : P s) :
    Prog.loopAux b fuel n s = Prog.loopAux b' fuel n s := by
  induction n generalizing s with
  | zero => rfl
  | succ n ih =>
    obtain ⟨h1, h2⟩ := h s hs
    rw [Prog.loopAux, Prog.loopAux, ← h1]
    cases hb : b s fuel with
    | running => rfl
    | panicked => rfl
    | done r =>
      cases r with
      | inl s' => exact ih s' (h2 fuel s' hb)
      | inr r => rfl

variable {w w' : WeightFn}

theorem improvement_agree (h : ∀ e, g.containsEdge e = true → Reach g s e.src → w e = w' e) {sc : Scores} (hr : Reached g s sc)
    {e : Edge} (he : g.containsEdge e = true) :
    improvement w sc e = improvement w' sc e ∧
      ∀ sp, improvement w sc e = .done (some sp) → (HMap.get? sc e.src).isSome = true := by
  unfold improvement
  cases hg : HMap.get? sc e.src with
  | none => exact ⟨rfl, fun sp hsp => by simp at hsp⟩
  | some sp => exact ⟨by rw [h e he (hr _ (by rw [hg]; rfl))], fun _ _ => rfl⟩

theorem bfRound_agree (hw : WF g) (h : ∀ e, g.containsEdge e = true → Reach g s e.src → w e = w' e) {sc : Scores}
    (hr : Reached g s sc) (n : Nat) :
    bfRound g w sc n = bfRound g w' sc n ∧ ∀ sc', bfRound g w sc n = .done sc' → Reached g s sc' := by
  refine forEach_agree (P := Reached g s) (fun e he sc hr => ?_) sc hr
  have he := hw.mem_edges.1 he
  obtain ⟨h1, h2⟩ := improvement_agree h hr he
  unfold bfRelax
  refine ⟨by rw [h1], fun sc' hd => ?_⟩
  cases hi : improvement w sc e with
  | running => rw [hi] at hd; cases hd
  | panicked => rw [hi] at hd; cases hd
  | done r =>
    rw [hi] at hd
    cases r with
    | none => cases hd; exact hr
    | some sp => cases hd; exact hr.insert he (h2 sp hi) sp

theorem bfImprovable_agree (h : ∀ e, g.containsEdge e = true → Reach g s e.src → w e = w' e) {sc : Scores}
    (hr : Reached g s sc) (l : List Edge) (hl : ∀ e ∈ l, g.containsEdge e = true) :
    bfImprovable w sc l = bfImprovable w' sc l := by
  induction l with
  | nil => rfl
  | cons e l ih =>
    rw [bfImprovable, bfImprovable, (improvement_agree h hr (hl e (by simp))).1, ih fun x hx => hl x (by simp [hx])]

theorem bellmanFord_agree (hw : WF g) (h : ∀ e, g.containsEdge e = true → Reach g s e.src → w e = w' e) :
    bellmanFord g w s = bellmanFord g w' s := by
  obtain ⟨h1, h2⟩ := forEach_agree (b := bfRound g w) (b' := bfRound g w') (P := Reached g s)
    (l := List.range' 1 (g.vertexCount - 1)) (fun n _ sc hr => bfRound_agree hw h hr n) (initialScores s) reached_initial
  unfold bellmanFord
  rw [← h1]
  cases hf : Run.forEach (bfRound g w) (initialScores s) (List.range' 1 (g.vertexCount - 1)) with
  | running => rfl
  | panicked => rfl
  | done sc =>
    rw [Run.bind_done, Run.bind_done, bfImprovable_agree h (h2 sc hf) _ fun e he => hw.mem_edges.1 he]

theorem spfaStep_agree (hw : WF g) (h : ∀ e, g.containsEdge e = true → Reach g s e.src → w e = w' e)
    (st : Scores × Queue VertexId) (hr : Reached g s st.1) :
    spfaStep g w st = spfaStep g w' st ∧ ∀ n st', spfaStep g w st n = .done (.inl st') → Reached g s st'.1 := by
  unfold spfaStep
  cases hp : st.2.pop with
  | none => exact ⟨rfl, fun n st' hd => by cases hd⟩
  | some vq =>
    obtain ⟨vid, q⟩ := vq
    obtain ⟨h1, h2⟩ := forEach_agree (b := spfaRelax w) (b' := spfaRelax w') (P := fun st => Reached g s st.1)
      (l := g.outboundEdges vid) (by
        intro e he st hr
        have he := (hw.mem_outbound.1 he).1
        obtain ⟨h1, h2⟩ := improvement_agree h hr he
        unfold spfaRelax
        refine ⟨by rw [h1], fun st' hd => ?_⟩
        cases hi : improvement w st.1 e with
        | running => rw [hi] at hd; cases hd
        | panicked => rw [hi] at hd; cases hd
        | done r =>
          rw [hi] at hd
          cases r with
          | none => cases hd; exact hr
          | some sp => cases hd; exact hr.insert he (h2 sp hi) sp) (st.1, q) hr
    refine ⟨by simp only [h1], fun n st' hd => ?_⟩
    simp only [Prog.bind, Prog.lift, Prog.ret] at hd
    cases hf : Run.forEach (spfaRelax w) (st.1, q) (g.outboundEdges vid) with
    | running => rw [hf] at hd; cases hd
    | panicked => rw [hf] at hd; cases hd
    | done r => rw [hf] at hd; cases hd; exact h2 _ hf

theorem spfa_agree (hw : WF g) (h : ∀ e, g.containsEdge e = true → Reach g s e.src → w e = w' e) : spfa g w s = spfa g w' s := by
  funext n
  exact loopAux_agree (P := fun st => Reached g s st.1) (fun st hr => spfaStep_agree hw h st hr) n n _ reached_initial

theorem dagRun_agree (hw : WF g) {f f' : PartialWeightFn} (h : ∀ e, g.containsEdge e = true → Reach g s e.src → f e = f' e)
    (l : List VertexId) : dagRun g f s l = dagRun g f' s l := by
  refine (forEach_agree (P := Reached g s) (fun v _ sc hr => ?_) _ reached_initial).1
  refine forEach_agree (P := Reached g s) (fun e he sc hr => ?_) _ hr
  obtain ⟨hc, rfl⟩ := hw.mem_outbound.1 he
  unfold dagRelax
  cases hg : HMap.get? sc e.src with
  | none => exact ⟨rfl, fun sc' hd => by cases hd⟩
  | some sp =>
    have hsome : (HMap.get? sc e.src).isSome = true := by rw [hg]; rfl
    refine ⟨by rw [h e hc (hr _ hsome)], fun sc' hd => ?_⟩
    rw [show Run.unwrap (some sp) = .done sp from rfl, Run.bind_done, Run.bind_eq_done] at hd
    obtain ⟨x, _, hd⟩ := hd
    rw [Run.bind_eq_done] at hd
    obtain ⟨y, _, hd⟩ := hd
    split at hd
    · split at hd
      · cases hd; exact hr.insert hc hsome _
      · cases hd; exact hr
    · cases hd; exact hr.insert hc hsome _

theorem dagShortestPathsWith_agree (hw : WF g) {f f' : PartialWeightFn}
    (h : ∀ e, g.containsEdge e = true → Reach g s e.src → f e = f' e) :
    dagShortestPathsWith ⟨g⟩ f s = dagShortestPathsWith ⟨g⟩ f' s := by
  unfold dagShortestPathsWith
  congr 1; funext o; congr 1; funext l
  rw [dagRun_agree hw h]

end ShortestPath
end GC
