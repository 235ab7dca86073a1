/-
C133: the path that is given to a command is a text. Which of the many texts for one directory is given does not matter.
-/
import Verif.Proofs.Paths
import Verif.Props.History
namespace GC
namespace Paths
open Text Store

/-- **C133**: a command that changes the stored graph does the same on the directory, and ends in the same way, whatever text its path is
written as and wherever the command is run. -/
theorem C133_command (nd : Char → Bool) {cwd : FPath} {t : Text} {d : FPath} (ht : Spells cwd t d) (cmd : Cmd) {fs : FS} (hw : fs.WF)
    (hs : Somewhere cwd t fs) : exec nd cwd t cmd fs = Store.exec nd d cmd fs :=
  agree_exec (spells_shape ht) nd cmd hw (somewhere_base hw hs)

/-- **C133**: what a command reads is the graph that is stored in the directory. -/
theorem C133_load (nd : Char → Bool) {cwd : FPath} {t : Text} {d : FPath} (ht : Spells cwd t d) (fs : FS) :
    loadGraph nd cwd t fs = Store.loadGraph nd d fs :=
  agree_load (spells_shape ht) nd fs

/-- **C133**: a session in which every command is run from a directory of its own, with a spelling of its own, is the session on the directory. -/
theorem C133_session (nd : Char → Bool) (d : FPath) (l : List (FPath × Text × Cmd)) {fs : FS} (hw : fs.WF)
    (hl : ∀ e ∈ l, Spells e.1 e.2.1 d ∧ Somewhere e.1 e.2.1 fs) :
    session nd l fs = Store.session nd d (l.map fun e => e.2.2) fs := by
  induction l generalizing fs with
  | nil => rfl
  | cons e l ih =>
    obtain ⟨cwd, t, cmd⟩ := e
    have he := C133_command nd (hl _ (List.mem_cons_self ..)).1 cmd hw (hl _ (List.mem_cons_self ..)).2
    have hk := keeps_exec nd d cmd fs
    show ((session nd l (exec nd cwd t cmd fs).1).1, (exec nd cwd t cmd fs).2 :: (session nd l (exec nd cwd t cmd fs).1).2) = _
    rw [he, ih (hk.1 hw) fun e hm => ⟨(hl e (List.mem_cons_of_mem _ hm)).1, ?_⟩]
    · rfl
    · obtain ⟨h1, h2⟩ := hl e (List.mem_cons_of_mem _ hm)
      by_cases ha : e.2.1.head? = some '/'
      · exact .inl ha
      · refine .inr (hk.2 _ ?_ (h2.resolve_left ha))
        obtain ⟨ps, _, _, hd⟩ := h1
        rw [if_neg ha] at hd
        exact ⟨_, hd.symm⟩

/-- **C133**: a text means at most one directory. -/
theorem C133_one_meaning {cwd : FPath} {t : Text} {d d' : FPath} (h : Spells cwd t d) (h' : Spells cwd t d') : d = d' :=
  (spells_entry h).symm.trans (spells_entry h')

/-- **C133**: a text without `..` means a directory. -/
theorem C133_has_meaning (cwd : FPath) (ps : List Text) (h : ∀ p ∈ ps, '/' ∉ p ∧ p ≠ ['.', '.']) : ∃ d, Spells cwd (['/'].intercalate ps) d :=
  ⟨_, ps, rfl, h, rfl⟩

theorem intercalate_snoc {ps : List Text} (hne : ps ≠ []) (q : Text) : ['/'].intercalate (ps ++ [q]) = ['/'].intercalate ps ++ '/' :: q := by
  induction ps with
  | nil => exact absurd rfl hne
  | cons p ps ih =>
    cases ps with
    | nil => simp [List.intercalate]
    | cons p' ps =>
      have := ih (by simp)
      simp [List.intercalate] at this ⊢
      exact this

theorem head_append {a b : Text} (h : a ≠ []) : (a ++ b).head? = a.head? := by cases a with | nil => exact absurd rfl h | cons => rfl

/-- **C133**: a slash at the end, or a slash and a dot, mean nothing (after a text that is not empty). -/
theorem C133_slash_at_end {cwd : FPath} {t : Text} {d : FPath} (ht : t ≠ []) (h : Spells cwd t d) :
    Spells cwd (t ++ ['/']) d ∧ Spells cwd (t ++ ['/', '.']) d := by
  obtain ⟨ps, h1, h2, h3⟩ := h
  have hne : ps ≠ [] := by rintro rfl; exact ht (by rw [h1]; rfl)
  refine ⟨⟨ps ++ [[]], by rw [intercalate_snoc hne, h1], ?_, ?_⟩, ⟨ps ++ [['.']], by rw [intercalate_snoc hne, h1], ?_, ?_⟩⟩
  · intro p hp
    rcases List.mem_append.1 hp with hp | hp
    · exact h2 p hp
    · rw [List.mem_singleton.1 hp]; decide
  · rw [head_append ht, h3, List.filter_append]; simp
  · intro p hp
    rcases List.mem_append.1 hp with hp | hp
    · exact h2 p hp
    · rw [List.mem_singleton.1 hp]; decide
  · rw [head_append ht, h3, List.filter_append]; simp

/-- **C133**: a dot and a slash before a relative path mean nothing. -/
theorem C133_dot_before {cwd : FPath} {t : Text} {d : FPath} (ht : t.head? ≠ some '/') (h : Spells cwd t d) : Spells cwd ('.' :: '/' :: t) d := by
  obtain ⟨ps, h1, h2, h3⟩ := h
  rw [if_neg ht] at h3
  by_cases hne : ps = []
  · subst hne
    subst h1
    exact ⟨[['.'], []], rfl, by decide, by rw [h3]; rfl⟩
  · refine ⟨['.'] :: ps, ?_, ?_, ?_⟩
    · cases ps with
      | nil => exact absurd rfl hne
      | cons p ps => rw [h1]; simp [List.intercalate]
    · intro p hp
      rcases List.mem_cons.1 hp with rfl | hp
      · decide
      · exact h2 p hp
    · rw [h3]; simp

/-- **C133**: the names of the directories with a slash before each of them mean that directory, from everywhere. -/
theorem C133_from_the_top (cwd : FPath) {d : FPath} (h : ∀ n ∈ d, n ≠ [] ∧ '/' ∉ n ∧ n ≠ ['.'] ∧ n ≠ ['.', '.']) (hne : d ≠ []) :
    Spells cwd (d.flatMap fun n => '/' :: n) d := by
  have hi : ∀ d : FPath, d ≠ [] → ['/'].intercalate ([] :: d) = d.flatMap fun n => '/' :: n := by
    intro d hd
    induction d with
    | nil => exact absurd rfl hd
    | cons n d ih =>
      cases d with
      | nil => simp [List.intercalate]
      | cons m d =>
        have := ih (by simp)
        simp [List.intercalate] at this ⊢
        exact this
  refine ⟨[] :: d, (hi d hne).symm, ?_, ?_⟩
  · intro p hp
    rcases List.mem_cons.1 hp with rfl | hp
    · decide
    · exact ⟨(h p hp).2.1, (h p hp).2.2.2⟩
  · have hh : (d.flatMap fun n => '/' :: n).head? = some '/' := by
      cases d with
      | nil => exact absurd rfl hne
      | cons n d => rfl
    rw [if_pos hh, List.nil_append, List.filter_cons_of_neg (by simp)]
    exact (List.filter_eq_self.2 fun n hn => by simpa using ⟨(h n hn).1, (h n hn).2.2.1⟩).symm

theorem intercalate_pieces (t : Text) : ['/'].intercalate (pieces t) = t := by
  induction t with
  | nil => rfl
  | cons c t ih =>
    unfold pieces
    split
    · rename_i hc
      subst hc
      cases hp : pieces t with
      | nil => exact absurd hp (pieces_ne t)
      | cons p ps =>
        rw [hp] at ih
        simp [List.intercalate] at ih ⊢
        exact ih
    · cases hp : pieces t with
      | nil => exact absurd hp (pieces_ne t)
      | cons p ps =>
        rw [hp] at ih
        cases ps with
        | nil => simp [List.intercalate] at ih ⊢; exact ih
        | cons q ps => simp [List.intercalate] at ih ⊢; exact ih

/-- **C133**: two slashes mean the same as one. -/
theorem C133_double_slash {cwd : FPath} {a b : Text} {d : FPath} (h : Spells cwd (a ++ '/' :: b) d) : Spells cwd (a ++ '/' :: '/' :: b) d := by
  obtain ⟨ps, h1, h2, h3⟩ := h
  have hne : ps ≠ [] := by rintro rfl; simp [List.intercalate] at h1
  have hps : ps = pieces a ++ pieces b := by
    rw [← pieces_append, h1, pieces_intercalate hne fun p hp => (h2 p hp).1]
  have hp : pieces (a ++ '/' :: '/' :: b) = pieces a ++ [] :: pieces b := by
    rw [pieces_append]; rfl
  refine ⟨pieces a ++ [] :: pieces b, by rw [← hp, intercalate_pieces], fun p hpm => ?_, ?_⟩
  · rcases List.mem_append.1 hpm with hpm | hpm
    · exact h2 p (by rw [hps]; exact List.mem_append_left _ hpm)
    · rcases List.mem_cons.1 hpm with rfl | hpm
      · decide
      · exact h2 p (by rw [hps]; exact List.mem_append_right _ hpm)
  · have hh : (a ++ '/' :: '/' :: b).head? = (a ++ '/' :: b).head? := by cases a <;> rfl
    rw [hh, h3, hps, List.filter_append, List.filter_append, List.filter_cons_of_neg (by simp)]

/-! ### Cases -/

/-- `d`, `./d/`, `d//.` in the top directory, `.` in `d` itself, and `/d/` from anywhere, are all the directory `d`. -/
theorem spell_d : Spells [] ['d'] [['d']] := ⟨[['d']], rfl, by decide, rfl⟩
theorem spell_d_slash : Spells [] ['.', '/', 'd', '/'] [['d']] :=
  (C133_slash_at_end (by decide) (C133_dot_before (by decide) spell_d)).1
theorem spell_d_dot : Spells [] ['d', '/', '/', '.'] [['d']] :=
  C133_double_slash (a := ['d']) (C133_slash_at_end (by decide) spell_d).2
theorem spell_here : Spells [['d']] ['.'] [['d']] := ⟨[['.']], rfl, by decide, rfl⟩
theorem spell_nothing : Spells [['d']] [] [['d']] := ⟨[], rfl, by decide, rfl⟩
theorem spell_top (cwd : FPath) : Spells cwd ['/', 'd', '/'] [['d']] :=
  (C133_slash_at_end (by decide) (C133_from_the_top cwd (d := [['d']]) (by decide) (by decide))).1

/-- The text alone does not tell the directory: `d` is another one in another place. -/
example : Spells [['e']] ['d'] [['e'], ['d']] ∧ ¬ Spells [['e']] ['d'] [['d']] :=
  ⟨⟨[['d']], rfl, by decide, rfl⟩, fun h => absurd (C133_one_meaning h ⟨[['d']], rfl, by decide, rfl⟩) (by decide)⟩

example : ∃ d, Spells [] (['/'].intercalate [[], ['x'], [], ['.'], ['y']]) d := C133_has_meaning [] _ (by decide)

/-- `gc-add --path ./d/ --edge 1 2` in the top directory. -/
example (nd : Char → Bool) : exec nd [] ['.', '/', 'd', '/'] (.add { edge := some [['1'], ['2']] }) (sampleFS []) =
    Store.exec nd [['d']] (.add { edge := some [['1'], ['2']] }) (sampleFS []) :=
  C133_command nd spell_d_slash _ (sampleFS_wf _) (.inr rfl)

/-- It does write the edge. -/
example : (exec (fun _ => false) [] ['.', '/', 'd', '/'] (.add { edge := some [['1'], ['2']] }) (sampleFS [])).1 (Store.commandPath [['d']]) =
    some (.file "AddEdge 1 2\n".toList) := by decide +kernel

example (nd : Char → Bool) (c : Text) : loadGraph nd [['d']] ['.'] (sampleFS c) = Store.loadGraph nd [['d']] (sampleFS c) := C133_load nd spell_here _

/-- A session that is run from the top directory, from `d` and from a directory that need not exist, each time with another path. -/
example (nd : Char → Bool) (c : Text) :
    session nd [([], ['d', '/', '/', '.'], .init), ([['d']], [], .add { vertex := some [['3']] }), ([['d']], ['.'], .build id), ([['e']], ['/', 'd', '/'], .clean true [])]
      (sampleFS c) =
    Store.session nd [['d']] [.init, .add { vertex := some [['3']] }, .build id, .clean true []] (sampleFS c) := by
  apply C133_session nd [['d']] _ (sampleFS_wf c)
  intro e he
  simp only [List.mem_cons, List.not_mem_nil, or_false] at he
  rcases he with rfl | rfl | rfl | rfl
  · exact ⟨spell_d_dot, .inr rfl⟩
  · exact ⟨spell_nothing, .inr rfl⟩
  · exact ⟨spell_here, .inr rfl⟩
  · exact ⟨spell_top _, .inl rfl⟩

/-- The directories that are missing are made one after the other: `gc-init --path x/y` in an empty file system. -/
example : let s := exec (fun _ => false) [] ['x', '/', 'y'] .init (fun q => if q = [] then some .dir else none); s.2 = .success ∧ s.1 [['x']] = some .dir ∧ s.1 (Store.commandPath [['x'], ['y']]) = some (.file []) := by decide +kernel

end Paths
end GC
