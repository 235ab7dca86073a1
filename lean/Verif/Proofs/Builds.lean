/-
Several gc-build processes beside each other, for a graph that fits into one buffer.
-/
import Verif.Proofs.BuildReaders
import Verif.Props.Format
namespace GC
namespace Concurrent
open Store Text Format

variable {nd : Char → Bool} {order : Nat → DirectedGraph → DirectedGraph} {root : FPath} {jobs : List Job} {g : DirectedGraph}

theorem flatMap_length_perm {α β : Type} {l l' : List α} (h : l.Perm l') (f : α → List β) : (l.flatMap f).length = (l'.flatMap f).length :=
  (h.flatMap_right f).length_eq

/-- The size of the saved file depends on the graph only. -/
theorem save_length {x y : DirectedGraph} (hx : Built x) (hy : Built y) (h : SameGraph x y) : (Gcmd.save x).length = (Gcmd.save y).length := by
  have hv : x.vertices.Perm y.vertices := by
    rw [List.perm_ext_iff_of_nodup hx.wf.nodup_vertices hy.wf.nodup_vertices]
    intro v
    rw [mem_vertices, mem_vertices, h.1 v]
  have he : x.edges.Perm y.edges := by
    rw [List.perm_ext_iff_of_nodup hx.wf.nodup_edges hy.wf.nodup_edges]
    intro e
    rw [hx.wf.mem_edges, hy.wf.mem_edges, h.2 e]
  unfold Gcmd.save
  rw [List.length_append, List.length_append, flatMap_length_perm hv, flatMap_length_perm he]

/-- A graph that fits into the buffer is written by one call. -/
theorem saveWrites_small {x : DirectedGraph} (h : (Gcmd.save x).length ≤ bufCapacity) :
    saveWrites x = if Gcmd.save x = [] then [] else [Gcmd.save x] := by
  have hf := saveWrites_flatten x
  unfold saveWrites bufferedWrites at hf ⊢
  generalize hps : (x.vertices.flatMap fun v => [Gcmd.kwAddVertex, showId v, ['\n']]) ++
    (x.edges.flatMap fun e => [Gcmd.kwAddEdge, showId e.src, [' '], showId e.dst, ['\n']]) = ps at hf ⊢
  have hfl : ps.flatten = Gcmd.save x := by
    rw [← saveWrites_flatten x]
    unfold saveWrites
    rw [bufferedWrites_flatten, hps]
  have hsmall : ∀ p ∈ ps, p.length < bufCapacity := by
    intro p hp
    -- every piece is followed by another piece of the same line
    have : p.length < ps.flatten.length ∨ p.length < bufCapacity := by
      rw [← hps] at hp ⊢
      rcases List.mem_append.1 hp with hp | hp
      · obtain ⟨v, hv, hp⟩ := List.mem_flatMap.1 hp
        simp only [List.mem_cons, List.not_mem_nil, or_false] at hp
        left
        have hle : 2 ≤ (showId v).length + 1 ∨ (showId v).length = 0 := by omega
        have hsub : ([Gcmd.kwAddVertex, showId v, ['\n']] : List Text).flatten.length ≤
            ((x.vertices.flatMap fun v => [Gcmd.kwAddVertex, showId v, ['\n']]).flatten).length := by
          obtain ⟨a, b, e⟩ := List.append_of_mem hv
          rw [e]
          simp only [List.flatMap_append, List.flatMap_cons, List.flatten_append, List.length_append]
          omega
        simp only [List.flatten_append, List.length_append]
        simp only [List.flatten_cons, List.flatten_nil, List.length_append, List.length_nil, List.length_cons] at hsub
        have hk : 0 < Gcmd.kwAddVertex.length := by decide
        rcases hp with rfl | rfl | rfl
        · omega
        · omega
        · simp only [List.length_cons, List.length_nil] at *; omega
      · obtain ⟨v, hv, hp⟩ := List.mem_flatMap.1 hp
        simp only [List.mem_cons, List.not_mem_nil, or_false] at hp
        left
        have hsub : ([Gcmd.kwAddEdge, showId v.src, [' '], showId v.dst, ['\n']] : List Text).flatten.length ≤
            ((x.edges.flatMap fun e => [Gcmd.kwAddEdge, showId e.src, [' '], showId e.dst, ['\n']]).flatten).length := by
          obtain ⟨a, b, e⟩ := List.append_of_mem hv
          rw [e]
          simp only [List.flatMap_append, List.flatMap_cons, List.flatten_append, List.length_append]
          omega
        simp only [List.flatten_append, List.length_append]
        simp only [List.flatten_cons, List.flatten_nil, List.length_append, List.length_nil, List.length_cons] at hsub
        have hk : 0 < Gcmd.kwAddEdge.length := by decide
        rcases hp with rfl | rfl | rfl | rfl | rfl
        · omega
        · omega
        · simp only [List.length_cons, List.length_nil] at *; omega
        · omega
        · simp only [List.length_cons, List.length_nil] at *; omega
    rcases this with h1 | h1
    · rw [hfl] at h1; omega
    · exact h1
  rw [foldl_write_small ps [] [] hsmall (by rw [hfl]; simpa using h), hfl]
  unfold BufWriter.flush
  simp only [List.nil_append]
  split <;> rfl

/-- A saved form of the graph. -/
def Form (g : DirectedGraph) (t : Text) : Prop := ∃ x, Built x ∧ SameGraph x g ∧ t = Gcmd.save x

theorem Form.length {t t' : Text} (h : Form g t) (h' : Form g t') : t.length = t'.length := by
  obtain ⟨x, hx, hs, rfl⟩ := h
  obtain ⟨y, hy, hs', rfl⟩ := h'
  exact save_length hx hy ⟨fun v => (hs.1 v).trans (hs'.1 v).symm, fun e => (hs.2 e).trans (hs'.2 e).symm⟩

theorem Form.load {t : Text} (h : Form g t) : ∃ x, loadLines nd (lines t) = .done (.ok x) ∧ Built x ∧ SameGraph x g := by
  obtain ⟨x, hx, hs, rfl⟩ := h
  obtain ⟨y, h1, h2, h3⟩ := C09_gcmd_round_trip nd x hx
  refine ⟨y, ?_, h2, ⟨fun v => (h3.1 v).trans (hs.1 v), fun e => (h3.2 e).trans (hs.2 e)⟩⟩
  have hx : Content [] (FS.set (fun _ => none) (commandPath []) (some (.file (Gcmd.save x)))) (Gcmd.save x) := FS.set_self _ _ _
  rw [← loadGraph_lines hx]
  exact (loadGraph_content hx).2 h1

theorem Form.terminated {t : Text} (h : Form g t) : NewlineTerminated t := by
  obtain ⟨x, _, _, rfl⟩ := h
  exact terminated_save x

/-- Reading while the file is a saved form of the graph or empty. -/
def FormReader (g : DirectedGraph) (r : Reader) : Prop :=
  r.closed = [] ∧ ((r.current = [] ∧ r.offset = 0) ∨ (Form g r.current ∧ r.offset = r.current.length))

/-- One `read`. -/
theorem FormReader.step {r : Reader} (h : FormReader g r) {fs : FS} {t : Text} (hc : Content root fs t) (ht : Form g t ∨ t = [])
    (hn : ∀ t, Form g t → t.length ≤ bufCapacity) :
    (∃ r', stepRead nd root r fs = .more r' ∧ FormReader g r') ∨
    (∃ x, stepRead nd root r fs = .returned (.done (.ok x)) ∧ Built x ∧ (SameGraph x g ∨ (x = .new ∧ ¬ Form g t))) := by
  obtain ⟨hcl, hr⟩ := h
  unfold Content at hc
  unfold stepRead
  rw [hc]
  dsimp only
  have hret : ∀ u : Text, r.current = u → r.lines = lines u := by
    rintro u rfl
    unfold Reader.lines
    rw [hcl]
    rfl
  rcases hr with ⟨h1, h2⟩ | ⟨h1, h2⟩
  · by_cases he : t = []
    · subst he
      have e : readChunk [] r.offset = [] := by unfold readChunk; simp
      rw [e, if_neg (by simp), if_pos (.inl h1), hret [] h1]
      right
      by_cases hf : Form g []
      · obtain ⟨x, h3, h4, h5⟩ := hf.load (nd := nd)
        exact ⟨x, by rw [h3], h4, .inl h5⟩
      · exact ⟨.new, rfl, Built.new, .inr ⟨rfl, hf⟩⟩
    · left
      rcases ht with ht | ht
      · have e : readChunk t r.offset = t := by
          unfold readChunk
          rw [h2, List.drop_zero, List.take_of_length_le (hn t ht)]
        rw [e, if_pos he]
        refine ⟨_, rfl, hcl, .inr ⟨?_, ?_⟩⟩
        · dsimp only; rw [h1, List.nil_append]; exact ht
        · dsimp only; rw [h1, h2]; simp
      · exact absurd ht he
  · right
    have hlen : t.length ≤ r.offset := by
      rcases ht with ht | ht
      · rw [h2, ht.length h1]
      · rw [ht]; simp
    have e : readChunk t r.offset = [] := by
      unfold readChunk
      rw [List.drop_eq_nil_of_le hlen]
      rfl
    rw [e, if_neg (by simp), if_pos (show r.current = [] ∨ r.current.getLast? = some '\n' from h1.terminated), hret _ rfl]
    obtain ⟨x, h3, h4, h5⟩ := h1.load (nd := nd)
    exact ⟨x, by rw [h3], h4, .inl h5⟩

/-- gc-build did not begin to write. -/
def Early (pc : Pc) : Prop := pc = .start ∨ (∃ r, pc = .reading r) ∨ ∃ x, pc = .loaded x

/-- A graph a gc-build process has loaded. -/
def Kept (lossy : Prop) (g x : DirectedGraph) : Prop := Built x ∧ (SameGraph x g ∨ (lossy ∧ x = .new))

def BuildPc (lossy : Prop) (g : DirectedGraph) : Pc → Prop
  | .start => lossy
  | .reading r => lossy ∧ FormReader g r
  | .loaded x => Kept lossy g x
  | .rewriting offset rest => rest = [] ∨ ∃ x, Kept lossy g x ∧ offset = 0 ∧ rest = saveWrites x
  | .finished ok => ok = true
  | _ => False

def QueryPc (g : DirectedGraph) : Pc → Prop
  | .start => True
  | .reading r => FormReader g r
  | .answered res => ∃ x, res = .done (.ok x) ∧ (SameGraph x g ∨ x = .new)
  | _ => False

structure BuildsInv (root : FPath) (jobs : List Job) (g : DirectedGraph) (c : Text) (lossy : Prop) (s : Sys) : Prop where
  content : ∃ t, Content root s.fs t ∧ (Form g t ∨ (t = [] ∧ (lossy ∨ ∃ j T rest, jobs[j]? = some .build ∧ s.pc j = .rewriting 0 (T :: rest))))
  build : ∀ j, jobs[j]? = some .build → BuildPc lossy g (s.pc j)
  query : ∀ j, jobs[j]? = some .query → QueryPc g (s.pc j)
  first : lossy → (∀ j, jobs[j]? = some .build → Early (s.pc j)) →
    Content root s.fs c ∧ ∀ j x, jobs[j]? = some .build → s.pc j = .loaded x → SameGraph x g

theorem order_new {o : DirectedGraph → DirectedGraph} (ho : IsOrder o) : o .new = .new := by
  have h2 : (o .new).edgeMap = [] := List.nil_perm.1 (ho .new)
  cases h3 : o .new with
  | mk m => rw [h3] at h2; exact congrArg DirectedGraph.mk h2

theorem form_order (ho : ∀ i, IsOrder (order i)) {lossy : Prop} {x : DirectedGraph} (h : Kept lossy g x) (i : Nat) : Kept lossy g (order i x) := by
  obtain ⟨hb, h⟩ := h
  refine ⟨hb.reorder (ho i x), ?_⟩
  rcases h with h | ⟨h1, rfl⟩
  · left
    rw [sameGraph_iff] at h ⊢
    rw [← h]
    exact toSet_perm hb.wf (ho i x)
  · right
    exact ⟨h1, order_new (ho i)⟩

theorem save_new : Gcmd.save .new = [] := rfl

theorem BuildsInv.step (ho : ∀ i, IsOrder (order i)) {c : Text} (hcf : Form g c) (hn : c.length ≤ bufCapacity)
    (hj : ∀ (j : Nat) (job : Job), jobs[j]? = some job → job = .build ∨ job = .query) {lossy : Prop} {s : Sys}
    (h : BuildsInv root jobs g c lossy s) (i : Nat) : BuildsInv root jobs g c lossy (Concurrent.step nd order root jobs s i) := by
  have hn' : ∀ t, Form g t → t.length ≤ bufCapacity := fun t ht => by rw [ht.length hcf]; exact hn
  unfold Concurrent.step
  cases hi : jobs[i]? with
  | none => exact h
  | some job =>
    obtain ⟨t, hc, ht⟩ := h.content
    have ht' : Form g t ∨ t = [] := ht.imp id And.left
    -- steps of a process that is not writing, and that leave the files alone
    have quiet : ∀ pc' : Pc, (∀ T rest, s.pc i ≠ .rewriting 0 (T :: rest)) → (job = .build → BuildPc lossy g pc') → (job = .query → QueryPc g pc') →
        (job = .build → Early pc' → Early (s.pc i)) →
        (job = .build → Form g t → lossy → ∀ x, pc' = .loaded x → SameGraph x g) →
        BuildsInv root jobs g c lossy ⟨s.fs, fun j => if j = i then pc' else s.pc j⟩ := by
      intro pc' hw hb hq he hl
      refine ⟨⟨t, hc, ht.imp id (And.imp id (Or.imp id ?_))⟩, ?_, ?_, ?_⟩
      · rintro ⟨j, T, rest, h1, h2⟩
        refine ⟨j, T, rest, h1, ?_⟩
        dsimp only
        rw [if_neg (by rintro rfl; exact hw T rest h2)]
        exact h2
      · intro j hj'
        dsimp only
        by_cases e : j = i
        · subst e; rw [if_pos rfl]; rw [hi] at hj'; cases hj'; exact hb rfl
        · rw [if_neg e]; exact h.build j hj'
      · intro j hj'
        dsimp only
        by_cases e : j = i
        · subst e; rw [if_pos rfl]; rw [hi] at hj'; cases hj'; exact hq rfl
        · rw [if_neg e]; exact h.query j hj'
      · intro hlossy hearly
        have hold : ∀ j, jobs[j]? = some .build → Early (s.pc j) := by
          intro j hj'
          have := hearly j hj'
          dsimp only at this
          by_cases e : j = i
          · subst e
            rw [if_pos rfl] at this
            rw [hi] at hj'
            cases hj'
            exact he rfl this
          · rw [if_neg e] at this; exact this
        obtain ⟨h1, h2⟩ := h.first hlossy hold
        have e : t = c := by
          unfold Content at h1 hc
          rw [hc] at h1
          cases h1
          rfl
        refine ⟨h1, ?_⟩
        intro j x hj' hx
        dsimp only at hx
        by_cases e' : j = i
        · subst e'
          rw [if_pos rfl] at hx
          rw [hi] at hj'
          cases hj'
          exact hl rfl (e ▸ hcf) hlossy x hx
        · rw [if_neg e'] at hx
          exact h2 j x hj' hx
    -- steps of gc-build that change the file
    have writes : ∀ (t' : Text) (fs' : FS) (pc' : Pc), job = .build → ¬ Early pc' → BuildPc lossy g pc' → Content root fs' t' →
        (Form g t' ∨ (t' = [] ∧ (lossy ∨ ∃ T rest, pc' = .rewriting 0 (T :: rest)))) →
        BuildsInv root jobs g c lossy ⟨fs', fun j => if j = i then pc' else s.pc j⟩ := by
      intro t' fs' pc' hb hne hbp hc' ht''
      subst hb
      refine ⟨⟨t', hc', ht''.imp id (And.imp id (Or.imp id ?_))⟩, ?_, ?_, ?_⟩
      · rintro ⟨T, rest, h2⟩
        exact ⟨i, T, rest, hi, by dsimp only; rw [if_pos rfl]; exact h2⟩
      · intro j hj'
        dsimp only
        by_cases e : j = i
        · rw [if_pos e]; exact hbp
        · rw [if_neg e]; exact h.build j hj'
      · intro j hj'
        dsimp only
        by_cases e : j = i
        · subst e; rw [hi] at hj'; cases hj'
        · rw [if_neg e]; exact h.query j hj'
      · intro _ hearly
        have := hearly i hi
        dsimp only at this
        rw [if_pos rfl] at this
        exact absurd this hne
    dsimp only
    rcases hj i job hi with rfl | rfl
    · -- gc-build
      have hpi := h.build i hi
      generalize hpc : s.pc i = pc at hpi
      dsimp only [stepJob, stepBuild]
      cases pc with
      | start =>
        rw [stepOpen_content hc]
        refine quiet _ (by rw [hpc]; simp) (fun _ => ⟨hpi, rfl, .inl ⟨rfl, rfl⟩⟩) (fun e => by cases e) (fun _ _ => by rw [hpc]; exact .inl rfl)
          (fun _ _ _ x e => by cases e)
      | reading r =>
        obtain ⟨hlossy, hr⟩ := hpi
        have he : Early (s.pc i) := by rw [hpc]; exact .inr (.inl ⟨r, rfl⟩)
        dsimp only
        rcases hr.step (nd := nd) hc ht' hn' with ⟨r', h1, h2⟩ | ⟨x, h1, h2, h3⟩
        · rw [h1]
          exact quiet _ (by rw [hpc]; simp) (fun _ => ⟨hlossy, h2⟩) (fun e => by cases e) (fun _ _ => he) (fun _ _ _ x e => by cases e)
        · rw [h1]
          refine quiet _ (by rw [hpc]; simp) (fun _ => form_order ho ⟨h2, h3.imp id fun h => ⟨hlossy, h.1⟩⟩ i) (fun e => by cases e) (fun _ _ => he) ?_
          intro _ hf _ y e
          cases e
          rcases h3 with h3 | h3
          · rcases (form_order ho (lossy := False) ⟨h2, .inl h3⟩ i).2 with h | h
            · exact h
            · exact h.1.elim
          · exact absurd hf h3.2
      | loaded x =>
        have hfile : createTruncate (commandPath root) s.fs = (s.fs.set (commandPath root) (some (.file [])), .ok ()) := by
          unfold Content at hc
          unfold createTruncate
          rw [hc]
        dsimp only
        rw [hfile]
        dsimp only
        refine writes [] _ _ rfl ?_ (.inr ⟨x, hpi, rfl, rfl⟩) (FS.set_self _ _ _) ?_
        · rintro (e | ⟨_, e⟩ | ⟨_, e⟩) <;> cases e
        · rcases hpi.2 with hs | ⟨hl, _⟩
          · have hf : Form g (Gcmd.save x) := ⟨x, hpi.1, hs, rfl⟩
            rw [saveWrites_small (hn' _ hf)]
            by_cases e : Gcmd.save x = []
            · left; rw [← e]; exact hf
            · right
              refine ⟨rfl, .inr ⟨Gcmd.save x, [], ?_⟩⟩
              rw [if_neg e]
          · exact .inr ⟨rfl, .inl hl⟩
      | rewriting offset rest =>
        cases rest with
        | nil =>
          refine quiet _ (by rw [hpc]; simp) (fun _ => rfl) (fun e => by cases e) ?_ (fun _ _ _ x e => by cases e)
          rintro _ (e | ⟨_, e⟩ | ⟨_, e⟩) <;> cases e
        | cons T rest =>
          rcases hpi with e | ⟨x, hk, rfl, e⟩
          · cases e
          · rcases hk.2 with hs | ⟨_, rfl⟩
            · have hf : Form g (Gcmd.save x) := ⟨x, hk.1, hs, rfl⟩
              rw [saveWrites_small (hn' _ hf)] at e
              split at e
              · cases e
              · cases e
                refine writes (Gcmd.save x) _ _ rfl ?_ (.inl rfl) ?_ (.inl hf)
                · rintro (e | ⟨_, e⟩ | ⟨_, e⟩) <;> cases e
                · have hlen : t.length ≤ (Gcmd.save x).length := by
                    rcases ht' with ht' | ht'
                    · rw [ht'.length hf]
                    · rw [ht']; simp
                  unfold Content at hc ⊢
                  unfold writeAt
                  rw [hc]
                  dsimp only
                  rw [FS.set_self]
                  have hd : t.drop (Gcmd.save x).length = [] := List.drop_eq_nil_of_le hlen
                  simp [hd]
            · cases e
      | finished ok =>
        refine quiet _ (by rw [hpc]; simp) (fun _ => hpi) (fun e => by cases e) (fun _ he => by rw [hpc]; exact he) (fun _ _ _ x e => by cases e)
      | _ => exact hpi.elim
    · -- a query
      have hpi := h.query i hi
      generalize hpc : s.pc i = pc at hpi
      dsimp only [stepJob, stepQuery]
      cases pc with
      | start =>
        rw [stepOpen_content hc]
        exact quiet _ (by rw [hpc]; simp) (fun e => by cases e) (fun _ => ⟨rfl, .inl ⟨rfl, rfl⟩⟩) (fun e => by cases e) (fun e => by cases e)
      | reading r =>
        dsimp only
        rcases hpi.step (nd := nd) hc ht' hn' with ⟨r', h1, h2⟩ | ⟨x, h1, h2, h3⟩
        · rw [h1]
          exact quiet _ (by rw [hpc]; simp) (fun e => by cases e) (fun _ => h2) (fun e => by cases e) (fun e => by cases e)
        · rw [h1]
          exact quiet _ (by rw [hpc]; simp) (fun e => by cases e) (fun _ => ⟨x, rfl, h3.imp id And.left⟩) (fun e => by cases e) (fun e => by cases e)
      | answered res =>
        exact quiet _ (by rw [hpc]; simp) (fun e => by cases e) (fun _ => hpi) (fun e => by cases e) (fun e => by cases e)
      | _ => exact hpi.elim

theorem BuildsInv.run (ho : ∀ i, IsOrder (order i)) {c : Text} (hcf : Form g c) (hn : c.length ≤ bufCapacity)
    (hj : ∀ (j : Nat) (job : Job), jobs[j]? = some job → job = .build ∨ job = .query) {lossy : Prop} (schedule : List Nat) :
    ∀ {s : Sys}, BuildsInv root jobs g c lossy s → BuildsInv root jobs g c lossy (schedule.foldl (Concurrent.step nd order root jobs) s) := by
  induction schedule with
  | nil => exact id
  | cons i l ih => exact fun h => ih (h.step ho hcf hn hj i)

theorem buildsInv_init {c : Text} (hcf : Form g c) {fs : FS} (hc : Content root fs c) :
    BuildsInv root jobs g c True ⟨fs, fun _ => .start⟩ :=
  ⟨⟨c, hc, .inl hcf⟩, fun _ _ => trivial, fun _ _ => trivial, fun _ _ => ⟨hc, fun _ _ _ e => by cases e⟩⟩

/-- Once all gc-build processes have loaded the graph. -/
theorem BuildsInv.settle {c : Text} (hcf : Form g c) {s : Sys} (h : BuildsInv root jobs g c True s)
    (hl : ∀ j, jobs[j]? = some .build → ∃ x, s.pc j = .loaded x) : BuildsInv root jobs g c False s := by
  obtain ⟨h1, h2⟩ := h.first trivial fun j hj => .inr (.inr (hl j hj))
  refine ⟨⟨c, h1, .inl hcf⟩, ?_, h.query, fun h => h.elim⟩
  intro j hj
  obtain ⟨x, hx⟩ := hl j hj
  have := h.build j hj
  rw [hx] at this ⊢
  exact ⟨this.1, .inl (h2 j x hj hx)⟩

/-! A graph that does not fit into one buffer. -/

theorem showFuel_length (f n : Nat) : (showFuel f n).length ≤ f := by
  induction f generalizing n with
  | zero => simp [showFuel]
  | succ f ih =>
    unfold showFuel
    split
    · simp
    · have := ih (n / 10)
      simp only [List.length_append, List.length_cons, List.length_nil]
      omega

theorem showId_length (v : VertexId) : (showId v).length ≤ 20 := showFuel_length _ _

/-- What `write` calls a `BufWriter` makes. -/
structure WriterOk (w : BufWriter) : Prop where
  writes : ∀ t ∈ w.writes, t ≠ [] ∧ t.length ≤ bufCapacity
  buffer : w.buffer.length ≤ bufCapacity

theorem WriterOk.flush {w : BufWriter} (h : WriterOk w) : WriterOk w.flush := by
  unfold BufWriter.flush
  split
  · exact h
  · rename_i hb
    refine ⟨?_, by simp⟩
    intro t ht
    dsimp only at ht
    rcases List.mem_append.1 ht with ht | ht
    · exact h.writes t ht
    · rw [List.mem_singleton] at ht
      subst ht
      exact ⟨hb, h.buffer⟩

theorem WriterOk.write {w : BufWriter} (h : WriterOk w) {p : Text} (hp : p.length < bufCapacity) : WriterOk (w.write p) := by
  unfold BufWriter.write
  dsimp only
  rw [if_neg (by omega)]
  split
  · have hf := h.flush
    refine ⟨hf.writes, ?_⟩
    have : w.flush.buffer = [] := by unfold BufWriter.flush; split <;> simp_all
    dsimp only
    rw [this, List.nil_append]
    omega
  · refine ⟨h.writes, ?_⟩
    dsimp only
    rw [List.length_append]
    omega

theorem WriterOk.foldl (ps : List Text) (hp : ∀ p ∈ ps, p.length < bufCapacity) : ∀ {w : BufWriter}, WriterOk w → WriterOk (ps.foldl BufWriter.write w) := by
  induction ps with
  | nil => exact id
  | cons p ps ih => exact fun h => ih (fun q hq => hp q (by simp [hq])) (h.write (hp p (by simp)))

theorem saveWrites_ok (x : DirectedGraph) : ∀ t ∈ saveWrites x, t ≠ [] ∧ t.length ≤ bufCapacity := by
  unfold saveWrites bufferedWrites
  refine (WriterOk.flush (WriterOk.foldl _ ?_ ⟨by simp, by simp⟩)).writes
  intro p hp
  have hb : bufCapacity = 8192 := rfl
  have h1 : Gcmd.kwAddVertex.length = 10 := rfl
  have h2 : Gcmd.kwAddEdge.length = 8 := rfl
  rcases List.mem_append.1 hp with hp | hp
  · obtain ⟨v, hv, hp⟩ := List.mem_flatMap.1 hp
    simp only [List.mem_cons, List.not_mem_nil, or_false] at hp
    have := showId_length v
    rcases hp with rfl | rfl | rfl <;> (try simp only [List.length_cons, List.length_nil]) <;> omega
  · obtain ⟨v, hv, hp⟩ := List.mem_flatMap.1 hp
    simp only [List.mem_cons, List.not_mem_nil, or_false] at hp
    have := showId_length v.src
    have := showId_length v.dst
    rcases hp with rfl | rfl | rfl | rfl | rfl <;> (try simp only [List.length_cons, List.length_nil]) <;> omega

theorem saveWrites_large {x : DirectedGraph} (h : bufCapacity < (Gcmd.save x).length) :
    ∃ t1 t2 rest, saveWrites x = t1 :: t2 :: rest ∧ t1 ≠ [] := by
  have hf := saveWrites_flatten x
  have hok := saveWrites_ok x
  generalize saveWrites x = ws at hf hok ⊢
  rw [← hf] at h
  match ws with
  | [] => simp at h
  | [t] =>
    have := (hok t (by simp)).2
    simp at h
    omega
  | t1 :: t2 :: rest => exact ⟨t1, t2, rest, rfl, (hok t1 (by simp)).1⟩

/-- Steps of one gc-build only. -/
theorem run_build_at (nd : Char → Bool) (order : Nat → DirectedGraph → DirectedGraph) (root : FPath) {jobs : List Job} {i : Nat}
    (hi : jobs[i]? = some .build) (n : Nat) (s : Sys) :
    (List.replicate n i).foldl (Concurrent.step nd order root jobs) s =
      ⟨(iterBuild nd (order i) root n (s.pc i) s.fs).1, fun j => if j = i then (iterBuild nd (order i) root n (s.pc i) s.fs).2 else s.pc j⟩ := by
  induction n generalizing s with
  | zero =>
    show s = _
    obtain ⟨fs, pc⟩ := s
    simp only [iterBuild, Sys.mk.injEq, true_and]
    funext j
    split
    · rename_i h; rw [h]
    · rfl
  | succ n ih =>
    rw [List.replicate_succ, List.foldl_cons, ih]
    have e : Concurrent.step nd order root jobs s i = ⟨(stepBuild nd (order i) root (s.pc i) s.fs).1,
        fun j => if j = i then (stepBuild nd (order i) root (s.pc i) s.fs).2 else s.pc j⟩ := by
      unfold Concurrent.step
      rw [hi]
      rfl
    rw [e]
    simp only [if_true, iterBuild, Sys.mk.injEq, true_and]
    funext j
    split <;> rfl

/-- The first line of a file that begins with NUL. -/
theorem linesAux_head (cur t : Text) (h : cur ≠ []) : ∃ l ls, linesAux cur t = l :: ls ∧ (l = stripCr (cur ++ t.takeWhile (· ≠ '\n')) ∨ l = cur ++ t) := by
  induction t generalizing cur with
  | nil =>
    unfold linesAux
    refine ⟨cur, [], ?_, .inr (by simp)⟩
    cases cur with
    | nil => exact absurd rfl h
    | cons c cs => rfl
  | cons c cs ih =>
    unfold linesAux
    split
    · rename_i hc
      refine ⟨_, _, rfl, .inl ?_⟩
      subst hc
      simp
    · rename_i hc
      obtain ⟨l, ls, h1, h2⟩ := ih (cur ++ [c]) (by simp)
      refine ⟨l, ls, h1, ?_⟩
      rcases h2 with h2 | h2
      · left
        rw [h2, List.takeWhile_cons_of_pos (by simpa using hc)]
        simp
      · right
        rw [h2]
        simp

theorem parse_nul (nd : Char → Bool) (l : Text) : Gcmd.parseLine nd (Char.ofNat 0 :: l) = .done (.error (Char.ofNat 0 :: l)) := by
  rfl

theorem load_nul (nd : Char → Bool) (t : Text) : ∃ e, loadLines nd (lines (Char.ofNat 0 :: t)) = .done (.error (.parse e)) := by
  have h0 : lines (Char.ofNat 0 :: t) = linesAux [Char.ofNat 0] t := rfl
  obtain ⟨l, ls, h1, h2⟩ := linesAux_head [Char.ofNat 0] t (by simp)
  have h3 : ∃ l', l = Char.ofNat 0 :: l' := by
    rcases h2 with h2 | h2
    · unfold stripCr at h2
      split at h2
      · rename_i he
        rw [h2]
        cases ht : t.takeWhile (· ≠ '\n') with
        | nil => rw [ht] at he; exact absurd he (by decide)
        | cons c cs => exact ⟨_, rfl⟩
      · exact ⟨_, h2⟩
    · exact ⟨_, h2⟩
  obtain ⟨l', rfl⟩ := h3
  rw [h0, h1]
  refine ⟨.atLine 1 (Char.ofNat 0 :: l'), ?_⟩
  unfold loadLines
  unfold readLoop
  have hcom : isComment (Char.ofNat 0 :: l') = false := by
    unfold isComment trim
    rw [List.dropWhile_cons_of_neg (by decide)]
    have : ∀ (a : Text), ∃ b, ((a ++ [Char.ofNat 0]).dropWhile isWhite).reverse = Char.ofNat 0 :: b := by
      intro a
      induction a with
      | nil => exact ⟨[], by decide⟩
      | cons c cs ih =>
        rw [List.cons_append, List.dropWhile_cons]
        split
        · exact ih
        · exact ⟨cs.reverse ++ [c], by simp⟩
    rw [List.reverse_cons]
    obtain ⟨b, hb⟩ := this l'.reverse
    rw [hb]
    rfl
  rw [hcom, parse_nul]
  rfl

end Concurrent
end GC
