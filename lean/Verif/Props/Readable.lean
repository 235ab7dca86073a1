/-
Property C111: messages and answers can be read back.
-/
import Verif.Proofs.Readable
import Verif.Props.Constraint
import Verif.Props.Debug
import Verif.Props.ShortestPath
namespace GC
open Text Main Store Args

/-! ### Messages -/

/-- The beginning of a message, by its kind. -/
def messageStart : Nat → Text
  | 0 => "Incompatible set of constraints leading to vertices ".toList
  | 1 => "Incompatible set of constraints leading to edges ".toList
  | 2 => "Incompatible set of constraints about cycle inclusion and exclusion.".toList
  | 3 => "Incompatible set of MinLength constraints: ".toList
  | 4 => "Incompatible set of MaxLength constraints: ".toList
  | 5 => "Incompatible set of min/max length constraints: min=".toList
  | 6 => "Incompatible set of MinScore constraints: ".toList
  | 7 => "Incompatible set of MaxScore constraints: ".toList
  | _ => "Incompatible set of min/max score constraints: min=".toList

theorem messageStart_differ : ∀ i < 9, ∀ j < 9, i ≠ j →
    ¬ (messageStart i).isPrefixOf (messageStart j) ∧ ¬ (messageStart j).isPrefixOf (messageStart i) := by decide +kernel

theorem message_starts (e : Checker.ValidateError) : messageStart (kindOf e) <+: e.message := by
  cases e with
  | vertices vs => exact ⟨_, (List.append_assoc _ _ _).symm⟩
  | edges vs => exact ⟨_, (List.append_assoc _ _ _).symm⟩
  | cycle => exact List.prefix_refl _
  | severalMinLength l => exact ⟨_, (List.append_assoc _ _ _).symm⟩
  | severalMaxLength l => exact ⟨_, (List.append_assoc _ _ _).symm⟩
  | minMaxLength a b => exact ⟨_, ((List.append_assoc _ _ _).trans (List.append_assoc _ _ _)).symm⟩
  | severalMinScore l => exact ⟨_, (List.append_assoc _ _ _).symm⟩
  | severalMaxScore l => exact ⟨_, (List.append_assoc _ _ _).symm⟩
  | minMaxScore a b => exact ⟨_, ((List.append_assoc _ _ _).trans (List.append_assoc _ _ _)).symm⟩

theorem kindOf_lt (e : Checker.ValidateError) : kindOf e < 9 := by cases e <;> simp [kindOf]

theorem message_kind {e e' : Checker.ValidateError} (h : e.message = e'.message) : kindOf e = kindOf e' := by
  by_contra hn
  have h1 := message_starts e
  have h2 := message_starts e'
  rw [h] at h1
  have hd := messageStart_differ _ (kindOf_lt e) _ (kindOf_lt e') hn
  rcases List.prefix_or_prefix_of_prefix h1 h2 with k | k
  · exact hd.1 (List.isPrefixOf_iff_prefix.2 k)
  · exact hd.2 (List.isPrefixOf_iff_prefix.2 k)

/-- The numbers of a message are in range. -/
def ErrorInRange : Checker.ValidateError → Prop
  | .severalMinLength l => ∀ n ∈ l, n < 2 ^ 64
  | .severalMaxLength l => ∀ n ∈ l, n < 2 ^ 64
  | .minMaxLength a b => a < 2 ^ 64 ∧ b < 2 ^ 64
  | .severalMinScore l => ∀ n ∈ l, n.natAbs ≤ 2 ^ 63
  | .severalMaxScore l => ∀ n ∈ l, n.natAbs ≤ 2 ^ 63
  | .minMaxScore a b => a.natAbs ≤ 2 ^ 63 ∧ b.natAbs ≤ 2 ^ 63
  | _ => True

theorem errorInRange {cs : List Constraint} (hc : ∀ c ∈ cs, InRange c) {e : Checker.ValidateError} (h : Describes cs e) : ErrorInRange e := by
  cases e with
  | vertices vs => trivial
  | edges es => trivial
  | cycle => trivial
  | severalMinLength l => exact fun n hn => hc _ ((h.2 n).1 hn)
  | severalMaxLength l => exact fun n hn => hc _ ((h.2 n).1 hn)
  | minMaxLength a b => exact ⟨hc _ h.1, hc _ h.2.1⟩
  | severalMinScore l => exact fun n hn => hc _ ((h.2 n).1 hn)
  | severalMaxScore l => exact fun n hn => hc _ ((h.2 n).1 hn)
  | minMaxScore a b => exact ⟨hc _ h.1, hc _ h.2.1⟩

theorem mem_of_eraseDups {α : Type} [DecidableEq α] {l m : List α} (h : l.eraseDups = m.eraseDups) (a : α) : a ∈ l ↔ a ∈ m := by
  rw [← List.mem_eraseDups, h, List.mem_eraseDups]

theorem message_vertices : ∃ A B : Text, ∀ vs, (Checker.ValidateError.vertices vs).message = A ++ (debugVec debugVertex vs.eraseDups ++ B) :=
  ⟨_, _, fun _ => List.append_assoc _ _ _⟩
theorem message_edges : ∃ A B : Text, ∀ es, (Checker.ValidateError.edges es).message = A ++ (debugVec debugEdge es.eraseDups ++ B) :=
  ⟨_, _, fun _ => List.append_assoc _ _ _⟩
theorem message_severalMinLength : ∃ A B : Text, ∀ l, (Checker.ValidateError.severalMinLength l).message = A ++ (debugVec GcCycle.showNat l ++ B) :=
  ⟨_, _, fun _ => List.append_assoc _ _ _⟩
theorem message_severalMaxLength : ∃ A B : Text, ∀ l, (Checker.ValidateError.severalMaxLength l).message = A ++ (debugVec GcCycle.showNat l ++ B) :=
  ⟨_, _, fun _ => List.append_assoc _ _ _⟩
theorem message_severalMinScore : ∃ A B : Text, ∀ l, (Checker.ValidateError.severalMinScore l).message = A ++ (debugVec showInt l ++ B) :=
  ⟨_, _, fun _ => List.append_assoc _ _ _⟩
theorem message_severalMaxScore : ∃ A B : Text, ∀ l, (Checker.ValidateError.severalMaxScore l).message = A ++ (debugVec showInt l ++ B) :=
  ⟨_, _, fun _ => List.append_assoc _ _ _⟩
theorem message_minMaxLength : ∃ A B : Text, ∀ a b, (Checker.ValidateError.minMaxLength a b).message = A ++ (GcCycle.showNat a ++ ',' :: (B ++ GcCycle.showNat b)) := by
  refine ⟨"Incompatible set of min/max length constraints: min=".toList, " max=".toList, fun a b => ?_⟩
  unfold Checker.ValidateError.message
  rw [show ", max=".toList = ',' :: " max=".toList by decide +kernel]
  generalize "Incompatible set of min/max length constraints: min=".toList = s1
  generalize " max=".toList = s2
  simp only [List.append_assoc, List.cons_append]
theorem message_minMaxScore : ∃ A B : Text, ∀ a b, (Checker.ValidateError.minMaxScore a b).message = A ++ (showInt a ++ ',' :: (B ++ showInt b)) := by
  refine ⟨"Incompatible set of min/max score constraints: min=".toList, " max=".toList, fun a b => ?_⟩
  unfold Checker.ValidateError.message
  rw [show ", max=".toList = ',' :: " max=".toList by decide +kernel]
  generalize "Incompatible set of min/max score constraints: min=".toList = s1
  generalize " max=".toList = s2
  simp only [List.append_assoc, List.cons_append]

theorem other_kind {e e' : Checker.ValidateError} (h : e.message = e'.message) (hne : kindOf e ≠ kindOf e') {p : Prop} : p :=
  absurd (message_kind h) hne

theorem message_same {e e' : Checker.ValidateError} (hr : ErrorInRange e) (hr' : ErrorInRange e') (h : e.message = e'.message)
    {cs : List Constraint} (hd : Describes cs e) : Describes cs e' := by
  cases e with
  | vertices vs =>
    cases e' with
    | vertices ws =>
      obtain ⟨A, B, hAB⟩ := message_vertices
      rw [hAB, hAB] at h
      have hm := mem_of_eraseDups (debugVec_split items_vertex (fun _ _ => trivial) (fun _ _ => trivial) (List.append_cancel_left h)).1
      refine ⟨fun hn => ?_, fun v => (hm v).symm.trans (hd.2 v)⟩
      obtain ⟨v, hv⟩ := List.exists_mem_of_ne_nil _ hd.1
      have := (hm v).1 hv
      rw [hn] at this
      cases this
    | _ => exact other_kind h (by simp [kindOf])
  | edges es =>
    cases e' with
    | edges ws =>
      obtain ⟨A, B, hAB⟩ := message_edges
      rw [hAB, hAB] at h
      have hm := mem_of_eraseDups (debugVec_split items_edge (fun _ _ => trivial) (fun _ _ => trivial) (List.append_cancel_left h)).1
      refine ⟨fun hn => ?_, fun v => (hm v).symm.trans (hd.2 v)⟩
      obtain ⟨v, hv⟩ := List.exists_mem_of_ne_nil _ hd.1
      have := (hm v).1 hv
      rw [hn] at this
      cases this
    | _ => exact other_kind h (by simp [kindOf])
  | cycle =>
    cases e' with
    | cycle =>
      exact hd
    | _ => exact other_kind h (by simp [kindOf])
  | severalMinLength l =>
    cases e' with
    | severalMinLength m =>
      obtain ⟨A, B, hAB⟩ := message_severalMinLength
      rw [hAB, hAB] at h
      rw [← (debugVec_split items_nat hr hr' (List.append_cancel_left h)).1]
      exact hd
    | _ => exact other_kind h (by simp [kindOf])
  | severalMaxLength l =>
    cases e' with
    | severalMaxLength m =>
      obtain ⟨A, B, hAB⟩ := message_severalMaxLength
      rw [hAB, hAB] at h
      rw [← (debugVec_split items_nat hr hr' (List.append_cancel_left h)).1]
      exact hd
    | _ => exact other_kind h (by simp [kindOf])
  | minMaxLength a b =>
    cases e' with
    | minMaxLength c d =>
      obtain ⟨A, B, hAB⟩ := message_minMaxLength
      rw [hAB, hAB] at h
      obtain ⟨h1, _, h2⟩ := showNat_split hr.1 hr'.1 (by decide) (by decide) (List.append_cancel_left h)
      have h3 : GcCycle.showNat b ++ ' ' :: [] = GcCycle.showNat d ++ ' ' :: [] := by rw [List.append_cancel_left h2]
      rw [← h1, ← (showNat_split hr.2 hr'.2 (by decide) (by decide) h3).1]
      exact hd
    | _ => exact other_kind h (by simp [kindOf])
  | severalMinScore l =>
    cases e' with
    | severalMinScore m =>
      obtain ⟨A, B, hAB⟩ := message_severalMinScore
      rw [hAB, hAB] at h
      rw [← (debugVec_split items_int hr hr' (List.append_cancel_left h)).1]
      exact hd
    | _ => exact other_kind h (by simp [kindOf])
  | severalMaxScore l =>
    cases e' with
    | severalMaxScore m =>
      obtain ⟨A, B, hAB⟩ := message_severalMaxScore
      rw [hAB, hAB] at h
      rw [← (debugVec_split items_int hr hr' (List.append_cancel_left h)).1]
      exact hd
    | _ => exact other_kind h (by simp [kindOf])
  | minMaxScore a b =>
    cases e' with
    | minMaxScore c d =>
      obtain ⟨A, B, hAB⟩ := message_minMaxScore
      rw [hAB, hAB] at h
      obtain ⟨h1, _, h2⟩ := showInt_split hr.1 hr'.1 (by decide) (by decide) (List.append_cancel_left h)
      have h3 : showInt b ++ ' ' :: [] = showInt d ++ ' ' :: [] := by rw [List.append_cancel_left h2]
      rw [← h1, ← (showInt_split hr.2 hr'.2 (by decide) (by decide) h3).1]
      exact hd
    | _ => exact other_kind h (by simp [kindOf])

/-- C111: lists of constraints that `validate` rejects with the same message have the same conflict. -/
theorem C111_validate_message (cs ds : List Constraint) (hc : ∀ c ∈ cs, InRange c) (hd : ∀ c ∈ ds, InRange c)
    (e e' : Checker.ValidateError) (h : Checker.validate cs = .error e) (h' : Checker.validate ds = .error e')
    (heq : e.message = e'.message) : kindOf e = kindOf e' ∧ Describes ds e ∧ Describes cs e' := by
  have d := (C22_error_describes cs e h).1
  have d' := (C22_error_describes ds e' h').1
  exact ⟨message_kind heq, message_same (errorInRange hd d') (errorInRange hc d) heq.symm d',
    message_same (errorInRange hc d) (errorInRange hd d') heq d⟩

/-- `C111_validate_message` for two sets of constraints that are refused for the same reason. -/
example := C111_validate_message [.ContainsCycle, .MinLength 7, .MaxLength 3] [.MaxLength 3, .Not .ContainsCycle, .MinLength 7, .ContainsVertex 2]
  (by simp [InRange]) (by simp [InRange]) (.minMaxLength 7 3) (.minMaxLength 7 3) (by decide) (by decide) rfl

theorem message_atLine : ∃ A B C : Text, ∀ n line, (Format.ReadError.atLine n line).message =
    A ++ (GcCycle.showNat n ++ ':' :: (B ++ (line ++ C))) := by
  refine ⟨"Error at line ".toList, ' ' :: "Couldn't parse '".toList, ['\''], fun n line => ?_⟩
  unfold Format.ReadError.message Format.parseMessage
  rw [show ": ".toList = [':', ' '] by decide +kernel]
  generalize "Error at line ".toList = s1
  generalize "Couldn't parse '".toList = s2
  simp only [List.append_assoc, List.cons_append, List.nil_append]

/-- C111: the message of a file that cannot be read tells the number of the line and its text. -/
theorem C111_read_message (n m : Nat) (hn : n < 2 ^ 64) (hm : m < 2 ^ 64) (line line' : Text)
    (h : (Format.ReadError.atLine n line).message = (Format.ReadError.atLine m line').message) : n = m ∧ line = line' := by
  obtain ⟨A, B, C, hAB⟩ := message_atLine
  rw [hAB, hAB] at h
  obtain ⟨h1, _, h2⟩ := showNat_split hn hm (by decide) (by decide) (List.append_cancel_left h)
  exact ⟨h1, List.append_cancel_right (List.append_cancel_left h2)⟩

/-- `C111_read_message`: who is told of `AddVertx 1` at line 3 knows the line. -/
example (n : Nat) (hn : n < 2 ^ 64) (line : Text)
    (h : (Format.ReadError.atLine n line).message = (Format.ReadError.atLine 3 "AddVertx 1".toList).message) :
    n = 3 ∧ line = "AddVertx 1".toList := C111_read_message n 3 hn (by decide) line _ h

/-! ### Answers -/

theorem topoText_injective {r r' : Option (List VertexId)} (h : topoText r = topoText r') : r = r' := by
  have key : ∀ vs, topoText (some vs) ≠ topoText none := by
    intro vs e
    have h1 : topoText (some vs) = 'T' :: ("opological order: ".toList ++ (vs.flatMap fun v => showId v ++ [' ']) ++ ['\n']) := by
      unfold topoText
      rw [show "Topological order: ".toList = 'T' :: "opological order: ".toList by decide +kernel]
      rfl
    have h2 : topoText none = 'G' :: "raph is not a DAG.\n".toList := by decide +kernel
    rw [h1, h2] at e
    exact absurd (List.cons.inj e).1 (by decide)
  cases r with
  | none => cases r' with
    | none => rfl
    | some vs => exact absurd h.symm (key vs)
  | some vs => cases r' with
    | none => exact absurd h (key vs)
    | some ws =>
      unfold topoText at h
      dsimp only at h
      rw [List.append_assoc, List.append_assoc] at h
      have h1 := List.append_cancel_right (List.append_cancel_left h)
      have h2 := printedIds ' ' vs
      rw [h1] at h2
      rw [printedIds_injective (sep := ' ') (by decide) h2 (printedIds ' ' ws)]

/-- C111: two runs of gc-topo-sort that print the same text have the same answer: the same order, or none. -/
theorem C111_topo_sort (nd nd' : Char → Bool) (order order' : DirectedGraph → DirectedGraph) (root root' : FPath) (fs fs' : FS)
    (g g' : DirectedGraph) (hg : loadGraph nd root fs = .done (.ok g)) (hg' : loadGraph nd' root' fs' = .done (.ok g')) (out : Text)
    (h : Returns (gcTopoSort nd order root fs) out) (h' : Returns (gcTopoSort nd' order' root' fs') out) :
    ∃ r, Returns (TopoSort.topologicalSort (order g)) r ∧ Returns (TopoSort.topologicalSort (order' g')) r := by
  unfold gcTopoSort at h h'
  have k := Returns.of_bind_left (loadedGraph_ok hg) h
  have k' := Returns.of_bind_left (loadedGraph_ok hg') h'
  obtain ⟨r, h1, h2⟩ := bind_inv (topologicalSort_mono _) k
  obtain ⟨r', h3, h4⟩ := bind_inv (topologicalSort_mono _) k'
  cases topoText_injective ((Returns.ret _).unique h2 |>.trans (h4.unique (Returns.ret _)))
  exact ⟨r, h1, h3⟩

/-- `C111_topo_sort` for two files that print the same order. -/
example : ∃ r, Returns (TopoSort.topologicalSort (graphOf [.AddEdge 1 2])) r ∧
    Returns (TopoSort.topologicalSort (graphOf [.AddVertex 1, .AddEdge 1 2, .AddEdge 1 2])) r :=
  have mono (fs : FS) : Mono (gcTopoSort (fun _ => false) id [['d']] fs) :=
    Mono.bind (Mono.lift _) fun _ => Mono.bind (topologicalSort_mono _) fun _ => Mono.ret _
  C111_topo_sort (fun _ => false) (fun _ => false) id id [['d']] [['d']] _ _ _ _ (load_sample _ [.AddEdge 1 2])
    (load_sample _ [.AddVertex 1, .AddEdge 1 2, .AddEdge 1 2]) "Topological order: 1 2 \n".toList
    ((mono _).returns (n := 9) (by decide +kernel)) ((mono _).returns (n := 9) (by decide +kernel))

theorem shortPathText_injective {s e s' e' : VertexId} {r r' : Option ScoredPath}
    (hr : ∀ sp, r = some sp → sp.score.natAbs ≤ 2 ^ 63) (hr' : ∀ sp, r' = some sp → sp.score.natAbs ≤ 2 ^ 63)
    (h : shortPathText s e r = shortPathText s' e' r') : s = s' ∧ e = e' ∧ r = r' := by
  have hsome : ∃ A B C : Text, ∀ s e sp, shortPathText s e (some sp) =
      'S' :: (A ++ (showId s ++ ' ' :: (B ++ (showId e ++ ' ' :: (C ++ (showInt sp.score ++ '\n' :: vertexLines sp.path.vertices)))))) := by
    refine ⟨"hortest path from vertex ".toList, "to vertex ".toList, "with total cost of ".toList, fun s e sp => ?_⟩
    unfold shortPathText
    rw [show "Shortest path from vertex ".toList = 'S' :: "hortest path from vertex ".toList by decide +kernel,
      show " to vertex ".toList = ' ' :: "to vertex ".toList by decide +kernel,
      show " with total cost of ".toList = ' ' :: "with total cost of ".toList by decide +kernel]
    generalize "hortest path from vertex ".toList = s1
    generalize "to vertex ".toList = s2
    generalize "with total cost of ".toList = s3
    simp only [List.append_assoc, List.cons_append, List.nil_append]
  have hnone : ∃ A B C : Text, ∀ s e, shortPathText s e none = 'V' :: (A ++ (showId e ++ ' ' :: (B ++ (showId s ++ '.' :: C)))) := by
    refine ⟨"ertex ".toList, "is not reachable from vertex ".toList, ['\n'], fun s e => ?_⟩
    unfold shortPathText
    rw [show "Vertex ".toList = 'V' :: "ertex ".toList by decide +kernel,
      show " is not reachable from vertex ".toList = ' ' :: "is not reachable from vertex ".toList by decide +kernel,
      show ".\n".toList = ['.', '\n'] by decide +kernel]
    generalize "ertex ".toList = s1
    generalize "is not reachable from vertex ".toList = s2
    simp only [List.append_assoc, List.cons_append]
  obtain ⟨A, B, C, h1⟩ := hsome
  obtain ⟨A', B', C', h2⟩ := hnone
  cases r with
  | none =>
    cases r' with
    | none =>
      rw [h2, h2] at h
      obtain ⟨k1, _, k2⟩ := showId_split (by decide) (by decide) (List.append_cancel_left (List.cons.inj h).2)
      obtain ⟨k3, _⟩ := showId_split (by decide) (by decide) (List.append_cancel_left k2)
      exact ⟨k3, k1, rfl⟩
    | some sp => rw [h1, h2] at h; exact absurd (List.cons.inj h).1 (by decide)
  | some sp =>
    cases r' with
    | none => rw [h1, h2] at h; exact absurd (List.cons.inj h).1 (by decide)
    | some sp' =>
      rw [h1, h1] at h
      obtain ⟨k1, _, k2⟩ := showId_split (by decide) (by decide) (List.append_cancel_left (List.cons.inj h).2)
      obtain ⟨k3, _, k4⟩ := showId_split (by decide) (by decide) (List.append_cancel_left k2)
      obtain ⟨k5, _, k6⟩ := showInt_split (hr _ rfl) (hr' _ rfl) (by decide) (by decide) (List.append_cancel_left k4)
      have k7 := vertexLines_injective k6
      obtain ⟨⟨l⟩, a⟩ := sp
      obtain ⟨⟨l'⟩, a'⟩ := sp'
      simp only at k5 k7
      exact ⟨k1, k3, by rw [k5, k7]⟩

/-- C111: two runs of gc-short-path that print the same text were asked for the same vertices and have the same answer: the same path, or
none. -/
theorem C111_short_path (H H' : ScoredHeap) (nd nd' : Char → Bool) (order order' : DirectedGraph → DirectedGraph)
    (ho : IsOrder order) (ho' : IsOrder order') (root root' : FPath) (fs fs' : FS) (start end_ start' end_' : Text) (s e s' e' : VertexId)
    (hs : ArgId start s) (he : ArgId end_ e) (hs' : ArgId start' s') (he' : ArgId end_' e')
    (g g' : DirectedGraph) (hg : loadGraph nd root fs = .done (.ok g)) (hg' : loadGraph nd' root' fs' = .done (.ok g'))
    (hsize : g.vertexCount < 2 ^ 63) (hsize' : g'.vertexCount < 2 ^ 63) (out : Text)
    (h : Returns (gcShortPath H nd order root start end_ fs) out) (h' : Returns (gcShortPath H' nd' order' root' start' end_' fs') out) :
    s = s' ∧ e = e' ∧ ∃ r, Returns (AStar.gcShortPath H (order g) s e) r ∧ Returns (AStar.gcShortPath H' (order' g') s' e') r := by
  have key : ∀ {H : ScoredHeap} {nd : Char → Bool} {order : DirectedGraph → DirectedGraph}, IsOrder order → ∀ {root : FPath} {fs : FS}
      {start end_ : Text} {s e : VertexId}, ArgId start s → ArgId end_ e → ∀ {g : DirectedGraph}, loadGraph nd root fs = .done (.ok g) →
      g.vertexCount < 2 ^ 63 → Returns (gcShortPath H nd order root start end_ fs) out →
      ∃ r, Returns (AStar.gcShortPath H (order g) s e) r ∧ out = shortPathText s e r ∧ ∀ sp, r = some sp → sp.score.natAbs ≤ 2 ^ 63 := by
    intro H nd order ho root fs start end_ s e hs he g hg hsize h
    obtain ⟨hob, hadj, hver, hcount⟩ := adj_order ho (loadGraph_built hg).1
    obtain ⟨r, h1, h2, h3⟩ := C33_short_path_optimal H (order g) hob (by omega) s e
    refine ⟨r, h1, ?_, ?_⟩
    · refine h.unique ?_
      unfold gcShortPath
      rw [endpoint_ok hs, endpoint_ok he]
      exact (Returns.lift_done _).bind ((Returns.lift_done _).bind ((loadedGraph_ok hg).bind (h1.bind (Returns.ret _))))
    · intro sp hsp
      obtain ⟨h4, h5, h6, h7⟩ := h3 sp hsp
      have h8 := SimplePathFrom.length_le hob.wf (l := sp.path.vertices) ⟨h4.1, h4.2.1, h5⟩
      have hv : (order g).vertices.length = (order g).vertexCount := by simp [DirectedGraph.vertexCount, DirectedGraph.vertices, HMap.keys]
      rw [h6]
      have hne : sp.path.vertices ≠ [] := by intro e; rw [e] at h4; cases h4.2.1
      have := List.length_pos_of_ne_nil hne
      omega
  obtain ⟨r, k1, k2, k3⟩ := key ho hs he hg hsize h
  obtain ⟨r', k4, k5, k6⟩ := key ho' hs' he' hg' hsize' h'
  obtain ⟨rfl, rfl, rfl⟩ := shortPathText_injective k3 k6 (k2.symm.trans k5)
  exact ⟨rfl, rfl, r, k1, k4⟩

/-- `C111_short_path` for two files, whatever is printed. -/
example (H : ScoredHeap) (nd : Char → Bool) (out : Text)
    (h : Returns (gcShortPath H nd id [['d']] "1".toList "2".toList (sampleFS (Format.Gcmd.commandsText [.AddEdge 1 2]))) out)
    (h' : Returns (gcShortPath H nd id [['d']] "1".toList "2".toList (sampleFS (Format.Gcmd.commandsText [.AddEdge 1 2, .AddVertex 3]))) out) :=
  C111_short_path H H nd nd id id isOrder_id isOrder_id [['d']] [['d']] _ _ _ _ _ _ 1 2 1 2 (argId_of (by decide)) (argId_of (by decide))
    (argId_of (by decide)) (argId_of (by decide)) _ _ (load_sample nd [.AddEdge 1 2]) (load_sample nd [.AddEdge 1 2, .AddVertex 3])
    (by decide) (by decide) out h h'

theorem oneLine_append {t u : Text} (h : OneLine t) (h' : OneLine u) : OneLine (t ++ u) := fun c hc => by
  rcases List.mem_append.1 hc with k | k
  · exact h c k
  · exact h' c k

theorem oneLine_id (v : VertexId) : OneLine (showId v) := oneLine_of_ascii (showId_ascii v)

theorem oneLine_formatCycle (c : Cycle) : OneLine (GcCycle.formatCycle c) := by
  have hl : ∀ l, OneLine (GcCycle.showList l) := by
    intro l
    induction l with
    | nil => intro c hc; cases hc
    | cons v l ih =>
      cases l with
      | nil => exact oneLine_id v
      | cons w l =>
        rw [GcCycle.showList]
        · refine oneLine_append (oneLine_append (oneLine_id v) ?_) ih
          intro c hc
          rw [show ", ".toList = [',', ' '] by decide +kernel] at hc
          simp only [List.mem_cons, List.not_mem_nil, or_false] at hc
          rcases hc with rfl | rfl <;> decide
        · intro e; cases e
  unfold GcCycle.formatCycle
  refine oneLine_append (oneLine_append ?_ (hl _)) ?_
  · intro c hc
    rw [show "[".toList = ['['] by decide +kernel, List.mem_singleton] at hc
    subst hc; decide
  · intro c hc
    rw [show "]".toList = [']'] by decide +kernel, List.mem_singleton] at hc
    subst hc; decide

/-- C111: the lists of cycles printed by gc-cycle can be read back. -/
theorem C111_cycles (l m : List Cycle)
    (h : (l.flatMap fun c => GcCycle.formatCycle c ++ ['\n']) = m.flatMap fun c => GcCycle.formatCycle c ++ ['\n']) : l = m :=
  lines_injective C53_format_injective oneLine_formatCycle h

/-- C111: one cycle, or none, can be read back. -/
theorem C111_one_cycle (c d : Option Cycle) (h : GcCycle.formatCycleOpt c = GcCycle.formatCycleOpt d) : c = d := by
  have key : ∀ c : Cycle, GcCycle.formatCycle c ≠ "N/A".toList := by
    intro c e
    unfold GcCycle.formatCycle at e
    rw [show "[".toList = ['['] by decide +kernel, show "N/A".toList = ['N', '/', 'A'] by decide +kernel] at e
    exact absurd (List.cons.inj e).1 (by decide)
  cases c with
  | none => cases d with
    | none => rfl
    | some d => exact absurd h.symm (key d)
  | some c => cases d with
    | none => exact absurd h (key c)
    | some d => exact congrArg some (C53_format_injective c d h)

theorem showExtreme_split {a b : Option UInt64} {r s : Text} (h : showExtreme a ++ '\n' :: r = showExtreme b ++ '\n' :: s) : a = b ∧ r = s := by
  have key : ∀ (x : UInt64) (r s : Text), showU64 x ++ '\n' :: r ≠ ['-'] ++ '\n' :: s := by
    intro x r s e
    have hx := (showId_ascii ⟨x⟩)
    unfold showId at hx
    dsimp only at hx
    cases hc : showU64 x with
    | nil => rw [hc] at e; exact absurd (List.cons.inj e).1 (by decide)
    | cons c cs =>
      rw [hc] at e hx
      have := hx c (by simp)
      rw [(List.cons.inj e).1] at this
      exact absurd this (by decide)
  cases a with
  | none => cases b with
    | none => exact ⟨rfl, (List.cons.inj (List.cons.inj h).2).2⟩
    | some y => exact absurd h.symm (key _ _ _)
  | some x => cases b with
    | none => exact absurd h (key _ _ _)
    | some y =>
      obtain ⟨h1, _, h2⟩ := showId_split (u := ⟨x⟩) (v := ⟨y⟩) (by decide) (by decide) h
      cases h1
      exact ⟨rfl, h2⟩

theorem oneLine_extreme (a : Option UInt64) : OneLine (showExtreme a) := by
  cases a with
  | none => intro c hc; rw [showExtreme, List.mem_singleton] at hc; subst hc; decide
  | some x => exact oneLine_id ⟨x⟩

theorem count_oneLine {t : Text} (h : OneLine t) : t.count '\n' = 0 := List.count_eq_zero.2 fun hc => h _ hc rfl

/-- C111: the description of a graph can be read back, whatever the path is. -/
theorem C111_desc (path path' : Text) (d d' : Desc) (hv : d.vertices < 2 ^ 64) (he : d.edges < 2 ^ 64) (hv' : d'.vertices < 2 ^ 64)
    (he' : d'.edges < 2 ^ 64) (h : descText path d = descText path' d') : path = path' ∧ d = d' := by
  have hform : ∃ P A B C D : Text, OneLine A ∧ OneLine B ∧ OneLine C ∧ OneLine D ∧ ∀ path d, descText path d = P ++ (path ++
      ('\n' :: (A ++ (GcCycle.showNat d.vertices ++ ('\n' :: (B ++ (GcCycle.showNat d.edges ++ ('\n' :: (C ++ (showExtreme d.minId ++
      ('\n' :: (D ++ (showExtreme d.maxId ++ '\n' :: []))))))))))))) := by
    have ho : ∀ t : Text, (t.all fun c => c != '\n') = true → OneLine t := by
      intro t ht c hc e
      have := List.all_eq_true.1 ht c hc
      rw [e] at this
      exact absurd this (by decide)
    refine ⟨"Path: ".toList, "Vertices: ".toList, "Edges: ".toList, "Min vertex id: ".toList, "Max vertex id: ".toList,
      ho _ (by decide +kernel), ho _ (by decide +kernel), ho _ (by decide +kernel), ho _ (by decide +kernel), fun path d => ?_⟩
    unfold descText
    rw [show "\nVertices: ".toList = '\n' :: "Vertices: ".toList by decide +kernel,
      show "\nEdges: ".toList = '\n' :: "Edges: ".toList by decide +kernel,
      show "\nMin vertex id: ".toList = '\n' :: "Min vertex id: ".toList by decide +kernel,
      show "\nMax vertex id: ".toList = '\n' :: "Max vertex id: ".toList by decide +kernel]
    generalize "Path: ".toList = s0
    generalize "Vertices: ".toList = s1
    generalize "Edges: ".toList = s2
    generalize "Min vertex id: ".toList = s3
    generalize "Max vertex id: ".toList = s4
    simp only [List.append_assoc, List.cons_append]
  obtain ⟨P, A, B, C, D, hA, hB, hC, hD, hf⟩ := hform
  rw [hf, hf] at h
  replace h := List.append_cancel_left h
  -- both descriptions after the path have five line ends and begin with one
  have hnat : ∀ n, OneLine (GcCycle.showNat n) := fun n => oneLine_id ⟨UInt64.ofNat n⟩
  have hcount : ∀ d : Desc, ('\n' :: (A ++ (GcCycle.showNat d.vertices ++ ('\n' :: (B ++ (GcCycle.showNat d.edges ++ ('\n' :: (C ++
      (showExtreme d.minId ++ ('\n' :: (D ++ (showExtreme d.maxId ++ '\n' :: [])))))))))))).count '\n' = 5 := by
    intro d
    simp only [List.count_cons, List.count_append, count_oneLine hA, count_oneLine hB, count_oneLine hC, count_oneLine hD,
      count_oneLine (hnat _), count_oneLine (oneLine_extreme _), List.count_nil]
    rfl
  have hc1 := hcount d
  have hc2 := hcount d'
  have hpath : path = path' := by
    rcases List.append_eq_append_iff.1 h with ⟨t, h1, h2⟩ | ⟨t, h1, h2⟩
    · cases t with
      | nil => rw [h1, List.append_nil]
      | cons c t =>
        exfalso
        have e := (List.cons.inj h2).1
        rw [h2, List.count_append, hc2, ← e, List.count_cons_self] at hc1
        omega
    · cases t with
      | nil => rw [h1, List.append_nil]
      | cons c t =>
        exfalso
        have e := (List.cons.inj h2).1
        rw [h2, List.count_append, hc1, ← e, List.count_cons_self] at hc2
        omega
  subst hpath
  refine ⟨rfl, ?_⟩
  replace h := List.append_cancel_left (List.cons.inj (List.append_cancel_left h)).2
  obtain ⟨h1, _, h2⟩ := showNat_split hv hv' (by decide) (by decide) h
  obtain ⟨h3, _, h4⟩ := showNat_split he he' (by decide) (by decide) (List.append_cancel_left h2)
  obtain ⟨h5, h6⟩ := showExtreme_split (List.append_cancel_left h4)
  obtain ⟨h7, _⟩ := showExtreme_split (List.append_cancel_left h6)
  cases d
  cases d'
  simp only at h1 h3 h5 h7
  rw [h1, h3, h5, h7]

/-- `C111_desc` for a path that contains a line end. -/
example (path : Text) (d : Desc) (hv : d.vertices < 2 ^ 64) (he : d.edges < 2 ^ 64)
    (h : descText path d = descText "a\nVertices: 1".toList ⟨2, 1, some 1, some 2⟩) : path = "a\nVertices: 1".toList ∧ d = ⟨2, 1, some 1, some 2⟩ :=
  C111_desc path _ d _ hv he (by decide) (by decide) h

/-- Two lists of constraints with the same message. -/
example : let cs : List Constraint := [.ContainsCycle, .MinLength 7, .MaxLength 3]
    let ds : List Constraint := [.MaxLength 3, .Not .ContainsCycle, .MinLength 7, .ContainsVertex 2]
    Checker.validate cs = .error (.minMaxLength 7 3) ∧ Checker.validate ds = .error (.minMaxLength 7 3) ∧ (∀ c ∈ cs, InRange c) ∧
    ∀ c ∈ ds, InRange c := by
  refine ⟨by decide, by decide, ?_, ?_⟩ <;> intro c hc <;> simp only [List.mem_cons, List.not_mem_nil, or_false] at hc
  · rcases hc with rfl | rfl | rfl <;> simp [InRange]
  · rcases hc with rfl | rfl | rfl | rfl <;> simp [InRange]

/-- The message of a bad line. -/
example : (Format.ReadError.atLine 3 "AddVertx 1".toList).message = "Error at line 3: Couldn't parse 'AddVertx 1'".toList := by decide +kernel

/-- Two stored graphs with the same answer. -/
example (nd : Char → Bool) : let g := GraphCommand.applyCommands [.AddEdge 1 2] .new
    let g' := GraphCommand.applyCommands [.AddVertex 1, .AddEdge 1 2, .AddEdge 1 2] .new
    loadGraph nd [['d']] (sampleFS "AddEdge 1 2\n".toList) = .done (.ok g) ∧
    loadGraph nd [['d']] (sampleFS "AddVertex 1\nAddEdge 1 2\nAddEdge 1 2\n".toList) = .done (.ok g') ∧
    gcTopoSort nd id [['d']] (sampleFS "AddEdge 1 2\n".toList) 9 = .done "Topological order: 1 2 \n".toList ∧
    gcTopoSort nd id [['d']] (sampleFS "AddVertex 1\nAddEdge 1 2\nAddEdge 1 2\n".toList) 9 = .done "Topological order: 1 2 \n".toList := by
  have h1 := load_sample nd [.AddEdge 1 2]
  have h2 := load_sample nd [.AddVertex 1, .AddEdge 1 2, .AddEdge 1 2]
  refine ⟨h1, h2, ?_, ?_⟩
  · have : loadedGraph nd id [['d']] (sampleFS "AddEdge 1 2\n".toList) = Prog.ret (GraphCommand.applyCommands [.AddEdge 1 2] .new) := by
      unfold loadedGraph; rw [show "AddEdge 1 2\n".toList = Format.Gcmd.commandsText [.AddEdge 1 2] by decide +kernel, h1]; rfl
    unfold gcTopoSort
    rw [this]
    decide +kernel
  · have : loadedGraph nd id [['d']] (sampleFS "AddVertex 1\nAddEdge 1 2\nAddEdge 1 2\n".toList) =
        Prog.ret (GraphCommand.applyCommands [.AddVertex 1, .AddEdge 1 2, .AddEdge 1 2] .new) := by
      unfold loadedGraph
      rw [show "AddVertex 1\nAddEdge 1 2\nAddEdge 1 2\n".toList = Format.Gcmd.commandsText [.AddVertex 1, .AddEdge 1 2, .AddEdge 1 2] by
        decide +kernel, h2]
      rfl
    unfold gcTopoSort
    rw [this]
    decide +kernel

/-- A path that contains lines like those of the description itself. -/
example : descText "a\nVertices: 1".toList ⟨2, 1, some 1, some 2⟩ =
    "Path: a\nVertices: 1\nVertices: 2\nEdges: 1\nMin vertex id: 1\nMax vertex id: 2\n".toList := by decide +kernel

/-- Two cycles, as printed. -/
example : ([⟨[1, 2]⟩, ⟨[1, 30, 2]⟩] : List Cycle).flatMap (fun c => GcCycle.formatCycle c ++ ['\n']) = "[1, 2]\n[1, 30, 2]\n".toList := by
  decide +kernel

end GC
