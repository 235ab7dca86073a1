/-
gc-build while additions are made: what is in the file in the end.
-/
import Verif.Proofs.Builds
import Verif.Spec.Lost
namespace GC
namespace Concurrent
open Store Text Format

variable {nd : Char → Bool} {order : Nat → DirectedGraph → DirectedGraph} {root : FPath} {jobs : List Job} {b : Nat}

/-- The first moment at which something does not hold any more. -/
theorem first_change {α : Type} (P : List α → Prop) (l : List α) (h0 : P []) (h1 : ¬ P l) :
    ∃ u i v, l = u ++ i :: v ∧ P u ∧ ¬ P (u ++ [i]) := by
  classical
  induction l using List.reverseRecOn with
  | nil => exact absurd h0 h1
  | append_singleton l i ih =>
    by_cases h : P l
    · exact ⟨l, i, [], rfl, h, h1⟩
    · obtain ⟨u, j, v, e, h2, h3⟩ := ih h
      exact ⟨u, j, v ++ [i], by rw [e]; simp, h2, h3⟩

theorem first_mem {α : Type} {a : α} {l : List α} (h : a ∈ l) : ∃ u v, l = u ++ a :: v ∧ a ∉ u := by
  induction l with
  | nil => cases h
  | cons x l ih =>
    by_cases e : x = a
    · exact ⟨[], l, by rw [e]; rfl, by simp⟩
    · have : a ∈ l := by
        rcases List.mem_cons.1 h with h | h
        · exact absurd h.symm e
        · exact h
      obtain ⟨u, v, e1, e2⟩ := ih this
      refine ⟨x :: u, v, by rw [e1]; rfl, ?_⟩
      rw [List.mem_cons, not_or]
      exact ⟨fun h => e h.symm, e2⟩

/-- Additions stay where they are while another process runs. -/
theorem step_build_other (hb : jobs[b]? = some .build) (s : Sys) {i : Nat} (hi : i ≠ b) : (step nd order root jobs s b).pc i = s.pc i := by
  unfold Concurrent.step
  rw [hb]
  simp [hi]

theorem step_build_eq (hb : jobs[b]? = some .build) (s : Sys) : (step nd order root jobs s b).fs = (stepBuild nd (order b) root (s.pc b) s.fs).1 ∧
    (step nd order root jobs s b).pc b = (stepBuild nd (order b) root (s.pc b) s.fs).2 := by
  unfold Concurrent.step
  rw [hb]
  simp [stepJob]

/-- gc-build put another content into the file. -/
theorem AddInv.rebase (hb : jobs[b]? = some .build) {base base' : Text} {pre log : List (Nat × Text)} {s : Sys} (h : AddInv root jobs base pre log s)
    (hr : Ready root (Concurrent.step nd order root jobs s b).fs) (hc : Content root (Concurrent.step nd order root jobs s b).fs base') :
    AddInv root jobs base' (pre ++ log) [] (Concurrent.step nd order root jobs s b) := by
  refine ⟨hr, by simpa using hc, fun i cs hi => ?_, by simpa using h.known⟩
  rw [step_build_other hb s (by rintro rfl; rw [hb] at hi; cases hi), List.append_nil]
  exact h.ok i cs hi

/-- gc-build wrote everything. -/
def Done (pc : Pc) : Prop := (∃ n, pc = .rewriting n []) ∨ ∃ ok, pc = .finished ok

theorem stepBuild_done {pc : Pc} (h : Done pc) (fs : FS) (o : DirectedGraph → DirectedGraph) :
    (stepBuild nd o root pc fs).1 = fs ∧ Done (stepBuild nd o root pc fs).2 := by
  rcases h with ⟨n, rfl⟩ | ⟨ok, rfl⟩
  · exact ⟨rfl, .inr ⟨true, rfl⟩⟩
  · exact ⟨rfl, .inr ⟨ok, rfl⟩⟩

theorem AddInv.run_done (hb : jobs[b]? = some .build) (hone : ∀ i, jobs[i]? = some .build → i = b) {base : Text} {pre : List (Nat × Text)}
    (sched : List Nat) {log : List (Nat × Text)} {s : Sys} (h : AddInv root jobs base pre log s) (hd : Done (s.pc b)) :
    ∃ log', AddInv root jobs base pre (log ++ log') (sched.foldl (Concurrent.step nd order root jobs) s) := by
  induction sched generalizing log s with
  | nil => exact ⟨[], by simpa using h⟩
  | cons i sched ih =>
    rw [List.foldl_cons]
    by_cases hi : jobs[i]? = some .build
    · have e := hone i hi
      subst e
      obtain ⟨h1, h2⟩ := stepBuild_done (nd := nd) (root := root) hd s.fs (order i)
      refine ih (h.quiet hb (fun _ => by simp) h1) ?_
      rw [(step_build_eq hb s).2]
      exact h2
    · obtain ⟨l1, h1⟩ := h.run (nd := nd) (order := order) [i] (by simpa using hi)
      rw [List.foldl_cons, List.foldl_nil] at h1
      have hd' : Done ((Concurrent.step nd order root jobs s i).pc b) := by
        have := pc_other (nd := nd) (order := order) (root := root) (jobs := jobs) [i] (b := b)
          (by rw [List.mem_singleton]; rintro rfl; exact hi hb) s
        rw [List.foldl_cons, List.foldl_nil] at this
        rw [this]
        exact hd
      obtain ⟨l2, h2⟩ := ih h1 hd'
      exact ⟨l1 ++ l2, by rw [← List.append_assoc]; exact h2⟩

/-- The `write` calls of gc-build, with writes of additions in between. -/
theorem rewrite_run (hb : jobs[b]? = some .build) (hone : ∀ i, jobs[i]? = some .build → i = b) (rest : List Text) :
    ∀ (sched : List Nat) (front z : Text) (pre : List (Nat × Text)) (s : Sys), AddInv root jobs (front ++ z) pre [] s →
      s.pc b = .rewriting front.length rest → Finished ((sched.foldl (step nd order root jobs) s).pc b) →
      ∃ (u v : List Nat) (log log' : List (Nat × Text)) (tail : Text), sched = u ++ v ∧ (u = [] ∨ u.getLast? = some b) ∧
        (∃ n, (u.foldl (step nd order root jobs) s).pc b = .rewriting n []) ∧
        AddInv root jobs (front ++ rest.flatten ++ tail) (pre ++ log) [] (u.foldl (step nd order root jobs) s) ∧
        AddInv root jobs (front ++ rest.flatten ++ tail) (pre ++ log) log' (sched.foldl (step nd order root jobs) s) ∧
        tail <:+ z ++ logText log ∧ (z ++ logText log).length ≤ tail.length + rest.flatten.length ∧
        (rest.length ≤ 1 → tail = (z ++ logText log).drop rest.flatten.length) ∧ (rest = [] → log = []) := by
  induction rest with
  | nil =>
    intro sched front z pre s h hp _
    obtain ⟨log', h'⟩ := h.run_done (nd := nd) (order := order) hb hone sched (.inl ⟨_, hp⟩)
    exact ⟨[], sched, [], log', z, rfl, .inl rfl, ⟨_, hp⟩, by simpa using h, by simpa using h', by simp [logText], by simp [logText],
      by simp [logText], fun _ => rfl⟩
  | cons t rest ih =>
    intro sched front z pre s h hp hf
    have hmem : b ∈ sched := by
      by_contra hno
      rw [pc_other sched hno s, hp] at hf
      obtain ⟨ok, hf⟩ := hf
      cases hf
    obtain ⟨w, v, rfl, hw⟩ := first_mem hmem
    rw [List.foldl_append, List.foldl_cons] at hf
    have hw' : ∀ i ∈ w, jobs[i]? ≠ some .build := fun i hi h => hw (hone i h ▸ hi)
    obtain ⟨lw, h1⟩ := h.run (nd := nd) (order := order) w hw'
    rw [List.nil_append] at h1
    have p1 := pc_other (nd := nd) (order := order) (root := root) (jobs := jobs) w hw s
    rw [hp] at p1
    have e1 : ∀ x, w.foldl (step nd order root jobs) s = x → step nd order root jobs (w.foldl (step nd order root jobs) s) b =
      step nd order root jobs x b := fun x hx => by rw [hx]
    generalize hs1 : w.foldl (step nd order root jobs) s = s1 at *
    obtain ⟨f1, f2⟩ := step_build_eq (nd := nd) (order := order) (root := root) hb s1
    rw [p1] at f1 f2
    simp only [stepBuild] at f1 f2
    have c1 : Content root s1.fs (front ++ (z ++ logText lw)) := by
      have := h1.content
      rw [List.append_assoc] at this
      exact this
    have e2 : writeAt (commandPath root) front.length t s1.fs =
        s1.fs.set (commandPath root) (some (.file (front ++ t ++ (z ++ logText lw).drop t.length))) := by
      unfold writeAt
      unfold Content at c1
      rw [c1]
      simp only
      congr 3
      rw [List.take_left', Nat.sub_eq_zero_of_le (by simp), List.drop_append, List.drop_eq_nil_of_le (by omega)]
      · simp
      · rfl
    rw [e2] at f1
    have h2 : AddInv root jobs (front ++ t ++ (z ++ logText lw).drop t.length) (pre ++ lw) [] (step nd order root jobs s1 b) := by
      refine h1.rebase hb ?_ ?_
      · rw [f1]; exact ready_set_command h1.ready _
      · rw [f1]; exact FS.set_self _ _ _
    have p2 : (step nd order root jobs s1 b).pc b = .rewriting (front ++ t).length rest := by rw [f2, List.length_append]
    obtain ⟨u, v', log, log', tail, k1, k2, k3, k4, k5, k6, k7, k8, k9⟩ := ih v (front ++ t) _ (pre ++ lw) _ h2 p2 hf
    have efold : (w ++ b :: u).foldl (step nd order root jobs) s = u.foldl (step nd order root jobs) (step nd order root jobs s1 b) := by
      rw [List.foldl_append, List.foldl_cons, hs1]
    have efold' : (w ++ b :: v).foldl (step nd order root jobs) s = v.foldl (step nd order root jobs) (step nd order root jobs s1 b) := by
      rw [List.foldl_append, List.foldl_cons, hs1]
    refine ⟨w ++ b :: u, v', lw ++ log, log', tail, by rw [k1]; simp, .inr ?_, ?_, ?_, ?_, ?_, ?_, ?_, by simp⟩
    · rcases k2 with rfl | k2
      · simp
      · rw [List.getLast?_append, List.getLast?_cons, k2]
        simp
    · rw [efold]; exact k3
    · rw [efold]
      simp only [List.append_assoc, List.flatten_cons] at k4 ⊢
      exact k4
    · rw [efold']
      simp only [List.append_assoc, List.flatten_cons] at k5 ⊢
      exact k5
    · refine k6.trans ?_
      rw [logText_append, ← List.append_assoc]
      obtain ⟨y, hy⟩ := List.drop_suffix t.length (z ++ logText lw)
      exact ⟨y, by rw [← List.append_assoc, hy]⟩
    · rw [logText_append]
      simp only [List.length_append, List.length_drop, List.flatten_cons] at k7 ⊢
      omega
    · intro hr
      have hr' : rest = [] := by
        cases rest with
        | nil => rfl
        | cons _ _ => simp at hr
      subst hr'
      have := k8 (by simp)
      simp only [List.flatten_nil, List.length_nil, List.drop_zero] at this
      rw [this, k9 rfl]
      simp [logText]

/-- The additions that have written their batches are those in the log. -/
theorem wrote_iff (hs : Small jobs) {base : Text} {pre log : List (Nat × Text)} {s : Sys} (h : AddInv root jobs base pre log s) {i : Nat}
    {cs : List GraphCommand} (hi : jobs[i]? = some (.add cs)) (hne : cs ≠ []) : Wrote (s.pc i) ↔ i ∈ (pre ++ log).map Prod.fst := by
  have h1 := h.ok i cs hi
  have e := addWrites_small (hs i cs hi)
  rw [if_neg hne] at e
  rw [e] at h1
  have hm : i ∈ (pre ++ log).map Prod.fst ↔ logOf i (pre ++ log) ≠ [] := by
    unfold logOf
    rw [Ne, List.map_eq_nil_iff, List.filter_eq_nil_iff, List.mem_map]
    constructor
    · rintro ⟨p, hp, rfl⟩ hno
      exact hno p hp (by simp)
    · intro hno
      by_contra hx
      refine hno fun p hp hpi => hx ⟨p, hp, by simpa using hpi⟩
  rw [hm]
  generalize logOf i (pre ++ log) = l at h1
  generalize s.pc i = pc at h1
  unfold Wrote Finished
  generalize hw : [Gcmd.commandsText cs] = w at h1
  cases h1 with
  | start => simp
  | dirs => simp
  | locked => simp
  | @writing l rest w hl =>
    subst hw
    rcases l with _ | ⟨t, l⟩
    · rw [List.nil_append] at hl
      subst hl
      simp
    · rw [List.cons_append, List.cons.injEq, List.append_eq_nil_iff] at hl
      obtain ⟨_, _, rfl⟩ := hl
      simp
  | unlocking => subst hw; simp
  | finished => subst hw; simp

end Concurrent
end GC
