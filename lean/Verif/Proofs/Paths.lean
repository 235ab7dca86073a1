/-
Lemmas for C133: paths as texts.
-/
import Verif.Model.Paths
import Verif.Spec.Paths
import Verif.Proofs.Store
namespace GC
namespace Paths
open Text Store

/-! ### Pieces and components -/

theorem pieces_ne (t : Text) : pieces t ≠ [] := by
  cases t with
  | nil => simp [pieces]
  | cons c t =>
    unfold pieces
    split
    · simp
    · split <;> simp

theorem pieces_plain {n : Text} (h : '/' ∉ n) : pieces n = [n] := by
  induction n with
  | nil => rfl
  | cons c n ih =>
    simp only [List.mem_cons, not_or] at h
    rw [pieces, if_neg (fun e => h.1 e.symm), ih h.2]

theorem pieces_append (t n : Text) : pieces (t ++ '/' :: n) = pieces t ++ pieces n := by
  induction t with
  | nil => simp [pieces]
  | cons c t ih =>
    rw [List.cons_append, pieces, pieces]
    split
    · rw [ih]; rfl
    · rw [ih]
      cases h : pieces t with
      | nil => exact absurd h (pieces_ne t)
      | cons p ps => rfl

theorem pieces_intercalate {ps : List Text} (hne : ps ≠ []) (h : ∀ p ∈ ps, '/' ∉ p) : pieces (['/'].intercalate ps) = ps := by
  induction ps with
  | nil => exact absurd rfl hne
  | cons p ps ih =>
    cases ps with
    | nil => simpa [List.intercalate] using pieces_plain (h p (by simp))
    | cons q ps =>
      have : ['/'].intercalate (p :: q :: ps) = p ++ '/' :: ['/'].intercalate (q :: ps) := by simp [List.intercalate]
      rw [this, pieces_append, pieces_plain (h p (by simp)), ih (by simp) fun x hx => h x (by simp [hx])]
      rfl

/-- A file name. -/
structure Plain (n : Text) : Prop where
  slash : '/' ∉ n
  ne : n ≠ []
  dot : n ≠ ['.']
  dots : n ≠ ['.', '.']

theorem Plain.component {n : Text} (h : Plain n) : component n = some (.normal n) := by
  unfold Paths.component
  rw [if_neg (by rintro (e | e); exacts [h.ne e, h.dot e]), if_neg h.dots]

theorem components_join (t : Text) {n : Text} (h : Plain n) : components (join t n) = components t ++ [.normal n] := by
  have hh : n.head? ≠ some '/' := fun e => h.slash (List.mem_of_mem_head? e)
  have hp := pieces_plain h.slash
  unfold join
  rw [if_neg hh]
  by_cases ht : t = []
  · subst ht
    rw [if_pos (.inl rfl)]
    unfold components
    rw [List.nil_append, if_neg hh, hp]
    have e0 : List.filterMap Paths.component [n] = [.normal n] := by rw [List.filterMap_cons_some h.component]; rfl
    simp [pieces, Paths.component, h.dot]
    exact e0
  · by_cases hl : t.getLast? = some '/'
    · obtain ⟨t', rfl⟩ := List.getLast?_eq_some_iff.1 hl
      rw [if_pos (.inr hl), List.append_assoc]
      have e1 : pieces (t' ++ (['/'] ++ n)) = pieces t' ++ [n] := by
        rw [List.singleton_append, pieces_append, hp]
      have e2 : pieces (t' ++ ['/']) = pieces t' ++ [[]] := pieces_append t' []
      unfold components
      rw [e1, e2]
      have e3 : (t' ++ (['/'] ++ n)).head? = (t' ++ ['/']).head? := by cases t' <;> rfl
      have e4 : (pieces t' ++ [n]).head? = (pieces t' ++ [[]]).head? := by
        cases hc : pieces t' with
        | nil => exact absurd hc (pieces_ne t')
        | cons => rfl
      rw [e3, e4, List.filterMap_append, List.filterMap_append]
      have e0 : List.filterMap Paths.component [n] = [.normal n] := by rw [List.filterMap_cons_some h.component]; rfl
      have e5 : List.filterMap Paths.component [[]] = [] := rfl
      rw [e0, e5]
      simp
    · rw [if_neg (by simp [ht, hl])]
      unfold components
      rw [pieces_append, hp]
      have e3 : (t ++ '/' :: n).head? = t.head? := by cases t with | nil => exact absurd rfl ht | cons => rfl
      have e4 : (pieces t ++ [n]).head? = (pieces t).head? := by
        cases hc : pieces t with
        | nil => exact absurd hc (pieces_ne t)
        | cons => rfl
      rw [e3, e4, List.filterMap_append]
      simp [h.component]

theorem resolve_append (cwd : FPath) (a b : List Component) : resolve cwd (a ++ b) = resolve (resolve cwd a) b := List.foldl_append

theorem entry_join (cwd : FPath) (t : Text) {n : Text} (h : Plain n) : entry cwd (join t n) = entry cwd t ++ [n] := by
  unfold entry
  rw [components_join t h, resolve_append]
  rfl

theorem parent_join (t : Text) {n : Text} (h : Plain n) : parent (components (join t n)) = some (components t) := by
  rw [components_join t h]
  unfold parent
  simp

theorem plain_graph : Plain graphRootDir := ⟨by decide, by decide, by decide, by decide⟩
theorem plain_commands : Plain commandsFile := ⟨by decide, by decide, by decide, by decide⟩
theorem plain_lock : Plain lockFile := ⟨by decide, by decide, by decide, by decide⟩

/-! ### Directories -/

/-- The directory where the names begin. -/
def base (cwd : FPath) (t : Text) : FPath := if t.head? = some '/' then [] else cwd

theorem resolve_normals (p : FPath) (ns : List Text) : resolve p (ns.map .normal) = p ++ ns := by
  induction ns generalizing p with
  | nil => simp [resolve]
  | cons n ns ih =>
    show resolve (p ++ [n]) (ns.map .normal) = _
    rw [ih]; simp

/-- What the components of a path without `..` look like. -/
theorem spells_components {cwd : FPath} {t : Text} {d : FPath} (h : Spells cwd t d) :
    ∃ b ns, components t = b ++ ns.map .normal ∧ (b = [] ∨ b = [.rootDir] ∨ b = [.curDir]) ∧ resolve cwd b = base cwd t ∧ d = base cwd t ++ ns := by
  obtain ⟨ps, ht, hp, hd⟩ := h
  have hf : (pieces t).filterMap component = (ps.filter fun p => p ≠ [] ∧ p ≠ ['.']).map .normal := by
    by_cases hne : ps = []
    · subst hne
      subst ht
      rfl
    · rw [ht, pieces_intercalate hne fun p hpm => (hp p hpm).1]
      clear ht hd hne
      induction ps with
      | nil => rfl
      | cons p ps ih =>
        have ih := ih fun x hx => hp x (by simp [hx])
        by_cases h0 : p = [] ∨ p = ['.']
        · have : component p = none := by unfold component; rw [if_pos h0]
          rw [List.filterMap_cons_none this, List.filter_cons_of_neg (by simpa [not_and_or, or_iff_not_imp_left] using h0), ih]
        · have : component p = some (.normal p) := by
            unfold component; rw [if_neg h0, if_neg (hp p (by simp)).2]
          rw [List.filterMap_cons_some this, List.filter_cons_of_pos (by simpa [not_or] using h0), ih]
          rfl
  refine ⟨_, _, by unfold components; rw [hf], ?_, ?_, hd⟩
  · split
    · simp
    · split <;> simp
  · unfold base
    split
    · rfl
    · split <;> rfl

theorem spells_entry {cwd : FPath} {t : Text} {d : FPath} (h : Spells cwd t d) : entry cwd t = d := by
  obtain ⟨b, ns, h1, _, h2, h3⟩ := spells_components h
  unfold entry
  rw [h1, resolve_append, h2, resolve_normals, h3]

theorem dirPossible_of_dir {fs : FS} (hw : fs.WF) {d : FPath} (h : fs d = some .dir) : DirPossible fs d := by
  rintro q hq ⟨c, hc⟩
  by_cases he : q = d
  · subst he; rw [h] at hc; cases hc
  · rw [hw.dir_of_prefix hq he (by rw [h]; simp)] at hc; cases hc

theorem createDirAll_dir {fs : FS} (hw : fs.WF) {d : FPath} (h : fs d = some .dir) : createDirAll d fs = (fs, .ok ()) := by
  rw [createDirAll_ok (dirPossible_of_dir hw h)]
  refine congrArg (·, Except.ok ()) (funext fun q => ?_)
  by_cases hq : q <+: d
  · rw [if_pos (isPrefixOf_iff.2 hq)]
    by_cases he : q = d
    · subst he; exact h.symm
    · exact (hw.dir_of_prefix hq he (by rw [h]; simp)).symm
  · rw [if_neg (by rw [isPrefixOf_iff]; exact hq)]

/-- Making directories one by one is making them all at once. -/
theorem createDirs_eq {cwd p : FPath} {b : List Component} (hb : b = [] ∨ b = [.rootDir] ∨ b = [.curDir]) (hr : resolve cwd b = p) {fs : FS}
    (hw : fs.WF) (hp : fs p = some .dir) (ns : List Text) :
    (createDirs cwd (b ++ ns.map Component.normal).reverse fs).1 = (createDirAll (p ++ ns) fs).1 ∧
    ((createDirs cwd (b ++ ns.map Component.normal).reverse fs).2 = .ok () ↔ DirPossible fs (p ++ ns)) := by
  induction ns using List.reverseRecOn with
  | nil =>
    have hok : createDirs cwd b.reverse fs = (fs, .ok ()) := by
      rcases hb with rfl | rfl | rfl
      · rfl
      · have e : fs (resolve cwd [.rootDir]) = some .dir := by rw [hr]; exact hp
        simp [createDirs, mkdir, e]
      · have e : fs (resolve cwd [.curDir]) = some .dir := by rw [hr]; exact hp
        simp [createDirs, mkdir, e]
    simp only [List.map_nil, List.append_nil]
    rw [hok, createDirAll_dir hw hp]
    exact ⟨rfl, fun _ => dirPossible_of_dir hw hp, fun _ => rfl⟩
  | append_singleton ns n ih =>
    have hres : resolve cwd (b ++ (ns ++ [n]).map Component.normal) = p ++ ns ++ [n] := by
      rw [resolve_append, hr, resolve_normals, List.append_assoc]
    have hrev : (b ++ (ns ++ [n]).map Component.normal).reverse = .normal n :: (b ++ ns.map Component.normal).reverse := by simp
    have hpar : parent (Component.normal n :: (b ++ ns.map Component.normal).reverse).reverse = some (b ++ ns.map Component.normal) := by
      rw [List.reverse_cons, List.reverse_reverse]; simp [parent]
    have hback : (Component.normal n :: (b ++ ns.map Component.normal).reverse).reverse = b ++ (ns ++ [n]).map Component.normal := by simp
    rw [hrev]
    have hpre : ∀ q, q <+: p ++ (ns ++ [n]) ↔ q = p ++ ns ++ [n] ∨ q <+: p ++ ns := by
      intro q
      rw [← List.append_assoc, List.prefix_concat_iff]
    have hpq : p ++ (ns ++ [n]) = p ++ ns ++ [n] := (List.append_assoc ..).symm
    have hdl : (p ++ ns ++ [n]).dropLast = p ++ ns := List.dropLast_concat
    have hnot : ¬ p ++ ns ++ [n] <+: p ++ ns := not_prefix_self_snoc _ _
    unfold createDirs
    rw [hback] at hpar ⊢
    rw [hres, hpar]
    simp only
    have hfile : ∀ c, fs (p ++ ns ++ [n]) = some (.file c) → ¬ DirPossible fs (p ++ (ns ++ [n])) := fun c hc hd =>
      hd _ ((hpre _).2 (.inl rfl)) ⟨c, hc⟩
    have hup : ¬ DirPossible fs (p ++ ns) → ¬ DirPossible fs (p ++ (ns ++ [n])) := fun h hd => h fun q hq => hd q ((hpre q).2 (.inr hq))
    have hdown : DirPossible fs (p ++ ns) → fs (p ++ ns ++ [n]) = none → DirPossible fs (p ++ (ns ++ [n])) := by
      rintro h hnone q hq ⟨c, hc⟩
      rcases (hpre q).1 hq with rfl | hq
      · rw [hnone] at hc; cases hc
      · exact h q hq ⟨c, hc⟩
    have hset : ∀ {f : FS}, (∀ q, ¬ q <+: p ++ ns → f q = fs q) → (∀ q, q <+: p ++ ns → f q = some .dir) →
        f.set (p ++ ns ++ [n]) (some .dir) = fun q => if q.isPrefixOf (p ++ (ns ++ [n])) then some .dir else fs q := by
      intro f h1 h2
      funext q
      unfold FS.set
      by_cases hq : q = p ++ ns ++ [n]
      · rw [if_pos hq, if_pos (isPrefixOf_iff.2 ((hpre q).2 (.inl hq)))]
      · rw [if_neg hq]
        by_cases hq' : q <+: p ++ ns
        · rw [if_pos (isPrefixOf_iff.2 ((hpre q).2 (.inr hq'))), h2 q hq']
        · rw [if_neg (by rw [isPrefixOf_iff, hpre]; exact not_or.2 ⟨hq, hq'⟩), h1 q hq']
    cases hP : fs (p ++ ns ++ [n]) with
    | some e =>
      cases e with
      | dir =>
        have hm : mkdir (p ++ ns ++ [n]) fs = (fs, .error .isDirectory) := by simp only [mkdir, hP]
        rw [← hpq] at hP
        simp only [hm, if_true]
        rw [createDirAll_dir hw hP]
        exact ⟨rfl, fun _ => dirPossible_of_dir hw hP, fun _ => by trivial⟩
      | file c =>
        have hm : mkdir (p ++ ns ++ [n]) fs = (fs, .error .isDirectory) := by simp only [mkdir, hP]
        have hn := hfile c hP
        simp only [hm]
        rw [createDirAll_fail hn]
        simp [hn]
    | none =>
      cases hq : fs (p ++ ns) with
      | some e =>
        cases e with
        | dir =>
          have hm : mkdir (p ++ ns ++ [n]) fs = (fs.set (p ++ ns ++ [n]) (some .dir), .ok ()) := by simp only [mkdir, hP, hdl, hq]
          have hd := hdown (dirPossible_of_dir hw hq) hP
          simp only [hm]
          rw [createDirAll_ok hd]
          refine ⟨hset (fun _ _ => rfl) fun q hqq => ?_, fun _ => hd, fun _ => by trivial⟩
          by_cases he : q = p ++ ns
          · rw [he, hq]
          · exact hw.dir_of_prefix hqq he (by rw [hq]; simp)
        | file c =>
          have hm : mkdir (p ++ ns ++ [n]) fs = (fs, .error .notADirectory) := by simp only [mkdir, hP, hdl, hq]
          have hn := hup fun h => h _ (List.prefix_refl _) ⟨c, hq⟩
          simp only [hm]
          rw [createDirAll_fail hn]
          simp [hn]
      | none =>
        have hm : mkdir (p ++ ns ++ [n]) fs = (fs, .error .notFound) := by simp only [mkdir, hP, hdl, hq]
        obtain ⟨ih1, ih2⟩ := ih
        simp only [hm]
        by_cases hd : DirPossible fs (p ++ ns)
        · have hr2 := ih2.2 hd
          have hr1 := ih1
          rw [createDirAll_ok hd] at hr1
          have hd' := hdown hd hP
          generalize createDirs cwd (b ++ ns.map Component.normal).reverse fs = r at *
          obtain ⟨f1, r2⟩ := r
          simp only at hr1 hr2
          subst hr1 hr2
          have hm1 : mkdir (p ++ ns ++ [n]) (fun q => if q.isPrefixOf (p ++ ns) then some .dir else fs q) =
              (FS.set (fun q => if q.isPrefixOf (p ++ ns) then some .dir else fs q) (p ++ ns ++ [n]) (some .dir), .ok ()) := by
            unfold mkdir
            simp only [hdl]
            rw [if_neg (by rw [isPrefixOf_iff]; exact hnot), hP, if_pos (isPrefixOf_iff.2 (List.prefix_refl _))]
          simp only [hm1]
          rw [createDirAll_ok hd']
          refine ⟨hset (fun q hqq => ?_) (fun q hqq => ?_), fun _ => hd', fun _ => by trivial⟩
          · rw [if_neg (by rw [isPrefixOf_iff]; exact hqq)]
          · rw [if_pos (isPrefixOf_iff.2 hqq)]
        · have hr2 := mt ih2.1 hd
          have hn := hup hd
          rw [createDirAll_fail hd] at ih1
          generalize createDirs cwd (b ++ ns.map Component.normal).reverse fs = r at *
          obtain ⟨f1, r2⟩ := r
          cases r2 with
          | ok u => exact absurd rfl hr2
          | error e =>
            simp only at ih1
            rw [createDirAll_fail hn]
            simp [hn, ih1]

/-! ### What the commands keep -/

/-- The file system stays a tree, and the directories on the way to `d` stay. -/
def Keeps (d : FPath) (fs fs' : FS) : Prop := (fs.WF → fs'.WF) ∧ ∀ p, p <+: d → fs p = some .dir → fs' p = some .dir

theorem Keeps.refl (d : FPath) (fs : FS) : Keeps d fs fs := ⟨id, fun _ _ => id⟩

theorem Keeps.trans {d : FPath} {a b c : FS} (h : Keeps d a b) (h' : Keeps d b c) : Keeps d a c :=
  ⟨fun w => h'.1 (h.1 w), fun p hp hd => h'.2 p hp (h.2 p hp hd)⟩

theorem keeps_createDirAll (d q : FPath) (fs : FS) : Keeps d fs (createDirAll q fs).1 := by
  by_cases h : DirPossible fs q
  · rw [createDirAll_ok h]
    refine ⟨fun hw => ⟨?_, fun p x hx => ?_⟩, fun p _ hd => ?_⟩
    · rfl
    · show (if _ then _ else _) = _
      by_cases hp : p <+: q
      · rw [if_pos (isPrefixOf_iff.2 hp)]
      · rw [if_neg (by rw [isPrefixOf_iff]; exact hp)]
        have hpx : ¬ p ++ [x] <+: q := fun h => hp ((List.prefix_append _ _).trans h)
        exact hw.2 p x fun hn => hx ((if_neg (by rw [isPrefixOf_iff]; exact hpx)).trans hn)
    · show (if _ then _ else _) = _
      split
      · rfl
      · exact hd
  · rw [createDirAll_fail h]
    exact .refl d fs

/-- An entry that is no directory becomes a file. -/
theorem keeps_set_file {d q : FPath} {fs : FS} {t : Text} (h : fs q ≠ some .dir) (hq : fs.WF → fs q.dropLast = some .dir) :
    Keeps d fs (fs.set q (some (.file t))) := by
  refine ⟨fun hw => ⟨?_, fun p x hx => ?_⟩, fun p _ hd => ?_⟩
  · unfold FS.set
    rw [if_neg (fun e : [] = q => h (e ▸ hw.1))]
    exact hw.1
  · have hp : fs p = some .dir := by
      by_cases he : p ++ [x] = q
      · have := hq hw
        rwa [← he, List.dropLast_concat] at this
      · exact hw.2 p x (by unfold FS.set at hx; rwa [if_neg he] at hx)
    unfold FS.set
    rw [if_neg (fun e : p = q => h (e ▸ hp))]
    exact hp
  · unfold FS.set
    rw [if_neg (fun e : p = q => h (e ▸ hd))]
    exact hd

theorem parent_of_file {fs : FS} (hw : fs.WF) {q : FPath} {c : Text} (h : fs q = some (.file c)) : fs q.dropLast = some .dir := by
  cases q using List.reverseRecOn with
  | nil => exact hw.1
  | append_singleton q x => rw [List.dropLast_concat]; exact hw.2 q x (by rw [h]; simp)

theorem keeps_openCreate (d q : FPath) (fs : FS) : Keeps d fs (openCreate q fs).1 := by
  unfold openCreate
  cases h : fs q with
  | some e => cases e <;> exact .refl d fs
  | none =>
    cases h' : fs q.dropLast with
    | none => exact .refl d fs
    | some e =>
      cases e with
      | file => exact .refl d fs
      | dir => exact keeps_set_file (by rw [h]; simp) fun _ => h'

theorem keeps_createTruncate (d q : FPath) (fs : FS) : Keeps d fs (createTruncate q fs).1 := by
  unfold createTruncate
  cases h : fs q with
  | some e =>
    cases e with
    | dir => exact .refl d fs
    | file c => exact keeps_set_file (by rw [h]; simp) fun hw => parent_of_file hw h
  | none =>
    cases h' : fs q.dropLast with
    | none => exact .refl d fs
    | some e =>
      cases e with
      | file => exact .refl d fs
      | dir => exact keeps_set_file (by rw [h]; simp) fun _ => h'

theorem keeps_appendText (d q : FPath) (t : Text) (fs : FS) : Keeps d fs (appendText q t fs) := by
  unfold appendText
  cases h : fs q with
  | none => exact .refl d fs
  | some e =>
    cases e with
    | dir => exact .refl d fs
    | file c => exact keeps_set_file (by rw [h]; simp) fun hw => parent_of_file hw h

theorem keeps_removeFile (d q : FPath) (fs : FS) : Keeps d fs (removeFile q fs).1 := by
  unfold removeFile
  cases h : fs q with
  | none => exact .refl d fs
  | some e =>
    cases e with
    | dir => exact .refl d fs
    | file c =>
      refine ⟨fun hw => ⟨?_, fun p x hx => ?_⟩, fun p _ hd => ?_⟩
      · show (if _ then _ else _) = _
        rw [if_neg (fun e => by rw [← e, hw.1] at h; cases h)]
        exact hw.1
      · have hp : fs p = some .dir := by
          apply hw.2 p x
          intro hn
          apply hx
          show (if _ then _ else _) = _
          split
          · rfl
          · exact hn
        show (if _ then _ else _) = _
        rw [if_neg (fun e => by rw [← e, hp] at h; cases h)]
        exact hp
      · show (if _ then _ else _) = _
        rw [if_neg (fun e => by rw [← e, hd] at h; cases h)]
        exact hd

theorem keeps_removeDirAll (d : FPath) (x : Text) (fs : FS) : Keeps d fs (removeDirAll (d ++ [x]) fs).1 := by
  unfold removeDirAll
  cases h : fs (d ++ [x]) with
  | none => exact .refl d fs
  | some e =>
    cases e with
    | file => exact .refl d fs
    | dir =>
      refine ⟨fun hw => ⟨?_, fun p y hy => ?_⟩, fun p hp hd => ?_⟩
      · show (if _ then _ else _) = _
        rw [if_neg (by rw [isPrefixOf_iff, List.prefix_nil]; simp)]
        exact hw.1
      · have hn : ¬ d ++ [x] <+: p ++ [y] := fun e => hy (if_pos (isPrefixOf_iff.2 e))
        have hn' : ¬ d ++ [x] <+: p := fun e => hn (e.trans (List.prefix_append _ _))
        show (if _ then _ else _) = _
        rw [if_neg (by rw [isPrefixOf_iff]; exact hn')]
        apply hw.2 p y
        intro he
        exact hy ((if_neg (by rw [isPrefixOf_iff]; exact hn)).trans he)
      · show (if _ then _ else _) = _
        rw [if_neg (by rw [isPrefixOf_iff]; exact fun e => not_prefix_self_snoc d x (e.trans hp))]
        exact hd

theorem keeps_touch (d q : FPath) (fs : FS) : Keeps d fs (Store.touch q fs).1 := (keeps_createDirAll d _ fs).trans (keeps_openCreate d q _)

theorem keeps_withLock {d : FPath} {block : FS → Io Unit} (hb : ∀ fs, Keeps d fs (block fs).1) (fs : FS) : Keeps d fs (Store.withLock d block fs).1 := by
  unfold Store.withLock
  have h1 : Keeps d fs (Store.lock d fs).1 := keeps_touch d _ fs
  rcases hl : Store.lock d fs with ⟨f1, e | u⟩
  · rw [hl] at h1; exact h1
  · rw [hl] at h1
    have h2 := hb f1
    rcases hbl : block f1 with ⟨f2, r⟩
    rw [hbl] at h2
    have h3 : Keeps d f2 (Store.unlock d f2).1 := keeps_removeFile d _ f2
    simp only [hbl]
    rcases hu : Store.unlock d f2 with ⟨f3, e | u⟩ <;> rw [hu] at h3 <;> exact (h1.trans h2).trans h3

theorem keeps_save (d : FPath) (g : DirectedGraph) (fs : FS) : Keeps d fs (Store.saveGraphAsCommands d g fs).1 := by
  unfold Store.saveGraphAsCommands
  have h := keeps_createTruncate d (Store.commandPath d) fs
  rcases hc : createTruncate (Store.commandPath d) fs with ⟨f1, e | u⟩
  · rw [hc] at h; exact h
  · rw [hc] at h; exact h.trans (keeps_appendText d _ _ _)

theorem keeps_addCommandsTo (d q : FPath) (cs : List GraphCommand) (fs : FS) : Keeps d fs (addCommandsTo q cs fs).1 := by
  unfold addCommandsTo openAppend
  cases fs q with
  | none => exact .refl d fs
  | some e =>
    cases e with
    | dir => exact .refl d fs
    | file c => exact keeps_appendText d _ _ _

theorem keeps_apply (d : FPath) (cs : List GraphCommand) (fs : FS) : Keeps d fs (Store.applyGraphCommands d cs fs).1 :=
  keeps_withLock (fun f => keeps_addCommandsTo d _ cs f) fs

theorem keeps_clean (d : FPath) (fs : FS) : Keeps d fs (Store.clean d fs).1 := keeps_withLock (fun f => keeps_removeDirAll d _ f) fs

theorem keeps_expectOk {d : FPath} {fs : FS} {r : Io Unit} (h : Keeps d fs r.1) : Keeps d fs (expectOk r).1 := by
  obtain ⟨f, e | u⟩ := r <;> exact h

theorem keeps_mutateStep (d : FPath) (vals : Option (List Text)) (mk : List VertexId → Run (List GraphCommand)) (fs : FS) :
    Keeps d fs (Store.mutateStep d vals mk fs).1 := by
  unfold Store.mutateStep
  cases vals with
  | none => exact .refl d fs
  | some l =>
    simp only
    cases (Run.unwrap (Args.parseVertexIdList l)).bind mk with
    | done cs => exact keeps_apply d cs fs
    | _ => exact .refl d fs

theorem keeps_andThen {d : FPath} {fs : FS} {r : FS × Exit} {f : FS → FS × Exit} (h : Keeps d fs r.1) (hf : ∀ fs, Keeps d fs (f fs).1) :
    Keeps d fs (andThen r f).1 := by
  obtain ⟨f1, _ | _⟩ := r
  · exact h.trans (hf f1)
  · exact h

theorem keeps_exec (nd : Char → Bool) (d : FPath) (cmd : Cmd) (fs : FS) : Keeps d fs (Store.exec nd d cmd fs).1 := by
  cases cmd with
  | init => exact keeps_expectOk (keeps_touch d _ fs)
  | add a =>
    exact keeps_andThen (keeps_mutateStep ..) fun _ => keeps_andThen (keeps_mutateStep ..) fun _ => keeps_andThen (keeps_mutateStep ..) fun _ =>
      keeps_andThen (keeps_mutateStep ..) fun _ => keeps_andThen (keeps_mutateStep ..) fun _ => keeps_mutateStep ..
  | delete v e => exact keeps_andThen (keeps_mutateStep ..) fun _ => keeps_mutateStep ..
  | build order =>
    show Keeps d fs (Store.gcBuild nd order d fs).1
    unfold Store.gcBuild
    split
    · exact keeps_expectOk (keeps_save ..)
    · exact .refl d fs
  | clean force answer =>
    show Keeps d fs (Store.gcClean d force answer fs).1
    unfold Store.gcClean
    split
    · exact .refl d fs
    · exact keeps_expectOk (keeps_clean ..)
  | random g order force answer =>
    show Keeps d fs (Random.finish order d force answer fs (some g)).1
    unfold Random.finish
    simp only
    split
    · exact .refl d fs
    · exact keeps_andThen (keeps_expectOk (keeps_clean ..)) fun _ => keeps_andThen (keeps_expectOk (keeps_touch ..)) fun _ => keeps_expectOk (keeps_save ..)

/-! ### The two models agree -/

/-- The components of a path are names below the directory `p`. -/
def Shape (cwd p : FPath) (t : Text) (d : FPath) : Prop :=
  ∃ b ns, components t = b ++ ns.map Component.normal ∧ (b = [] ∨ b = [.rootDir] ∨ b = [.curDir]) ∧ resolve cwd b = p ∧ d = p ++ ns

theorem Shape.entry {cwd p : FPath} {t : Text} {d : FPath} (h : Shape cwd p t d) : entry cwd t = d := by
  obtain ⟨b, ns, h1, _, h2, h3⟩ := h
  unfold Paths.entry
  rw [h1, resolve_append, h2, resolve_normals, h3]

theorem Shape.join {cwd p : FPath} {t : Text} {d : FPath} (h : Shape cwd p t d) {n : Text} (hn : Plain n) : Shape cwd p (join t n) (d ++ [n]) := by
  obtain ⟨b, ns, h1, hb, h2, h3⟩ := h
  exact ⟨b, ns ++ [n], by rw [components_join t hn, h1]; simp, hb, h2, by rw [h3, List.append_assoc]⟩

theorem Shape.touch {cwd p : FPath} {t : Text} {d : FPath} (h : Shape cwd p t d) {fs : FS} (hw : fs.WF) (hp : fs p = some .dir) {n : Text} (hn : Plain n) :
    touch cwd (Paths.join t n) fs = Store.touch (d ++ [n]) fs := by
  obtain ⟨b, ns, h1, hb, h2, h3⟩ := h
  have he : Paths.entry cwd (Paths.join t n) = d ++ [n] := (Shape.join ⟨b, ns, h1, hb, h2, h3⟩ hn).entry
  unfold Paths.touch Store.touch
  rw [parent_join t hn, he, List.dropLast_concat]
  simp only
  rw [h1, (createDirs_eq hb h2 hw hp ns).1, h3]

section Agree
variable {cwd p : FPath} {t : Text} {d : FPath} (h : Shape cwd p t d)
include h

theorem entry_command : entry cwd (commandPath t) = Store.commandPath d := ((h.join plain_graph).join plain_commands).entry
theorem entry_root : entry cwd (rootPath t) = Store.rootPath d := (h.join plain_graph).entry
theorem entry_lock : entry cwd (lockPath t) = Store.lockPath d := (h.join plain_lock).entry

theorem agree_load (nd : Char → Bool) (fs : FS) : loadGraph nd cwd t fs = Store.loadGraph nd d fs := by
  unfold loadGraph Store.loadGraph
  rw [entry_command h]
  rfl

theorem agree_save (g : DirectedGraph) (fs : FS) : saveGraphAsCommands cwd t g fs = Store.saveGraphAsCommands d g fs := by
  unfold saveGraphAsCommands Store.saveGraphAsCommands
  rw [entry_command h]
  rfl

variable {fs : FS} (hw : fs.WF) (hp : fs p = some .dir)
include hw hp

theorem agree_init : init cwd t fs = Store.init d fs := (h.join plain_graph).touch hw hp plain_commands

theorem agree_withLock {α : Type} (block : FS → Io α) : withLock cwd t block fs = Store.withLock d block fs := by
  have h1 : lock cwd t fs = Store.lock d fs := h.touch hw hp plain_lock
  have h2 : ∀ f, unlock cwd t f = Store.unlock d f := fun f => by unfold unlock Store.unlock; rw [entry_lock h]
  unfold withLock Store.withLock
  simp only [h1, h2]
  rfl

theorem agree_clean : clean cwd t fs = Store.clean d fs := by
  unfold clean Store.clean
  rw [entry_root h, agree_withLock h hw hp]

theorem agree_apply (cs : List GraphCommand) : applyGraphCommands cwd t cs fs = Store.applyGraphCommands d cs fs := by
  unfold applyGraphCommands Store.applyGraphCommands
  rw [entry_command h, agree_withLock h hw hp]

theorem agree_mutateStep (vals : Option (List Text)) (mk : List VertexId → Run (List GraphCommand)) :
    mutateStep cwd t vals mk fs = Store.mutateStep d vals mk fs := by
  unfold mutateStep Store.mutateStep
  simp only [agree_apply h hw hp]
  rfl

end Agree

/-- One step after another. -/
theorem agree_andThen {p d : FPath} (hpd : p <+: d) {fs : FS} (hw : fs.WF) (hp : fs p = some .dir) {r r' : FS × Exit} {f f' : FS → FS × Exit}
    (hr : r = r') (hk : Keeps d fs r'.1) (hf : ∀ fs : FS, fs.WF → fs p = some .dir → f fs = f' fs) : andThen r f = andThen r' f' := by
  subst hr
  obtain ⟨f1, _ | _⟩ := r
  · exact hf f1 (hk.1 hw) (hk.2 p hpd hp)
  · rfl

theorem agree_exec {cwd p : FPath} {t : Text} {d : FPath} (h : Shape cwd p t d) (nd : Char → Bool) (cmd : Cmd) {fs : FS} (hw : fs.WF)
    (hp : fs p = some .dir) : exec nd cwd t cmd fs = Store.exec nd d cmd fs := by
  have hpd : p <+: d := by obtain ⟨_, ns, _, _, _, h3⟩ := h; exact ⟨ns, h3.symm⟩
  cases cmd with
  | init =>
    show expectOk _ = expectOk _
    rw [agree_init h hw hp]
  | add a =>
    refine agree_andThen hpd hw hp (agree_mutateStep h hw hp ..) (keeps_mutateStep ..) fun fs hw hp => ?_
    refine agree_andThen hpd hw hp (agree_mutateStep h hw hp ..) (keeps_mutateStep ..) fun fs hw hp => ?_
    refine agree_andThen hpd hw hp (agree_mutateStep h hw hp ..) (keeps_mutateStep ..) fun fs hw hp => ?_
    refine agree_andThen hpd hw hp (agree_mutateStep h hw hp ..) (keeps_mutateStep ..) fun fs hw hp => ?_
    refine agree_andThen hpd hw hp (agree_mutateStep h hw hp ..) (keeps_mutateStep ..) fun fs hw hp => ?_
    exact agree_mutateStep h hw hp ..
  | delete v e =>
    refine agree_andThen hpd hw hp (agree_mutateStep h hw hp ..) (keeps_mutateStep ..) fun fs hw hp => ?_
    exact agree_mutateStep h hw hp ..
  | build order =>
    show gcBuild nd order cwd t fs = Store.gcBuild nd order d fs
    unfold gcBuild Store.gcBuild
    simp only [agree_load h, agree_save h]
    rfl
  | clean force answer =>
    show gcClean cwd t force answer fs = Store.gcClean d force answer fs
    unfold gcClean Store.gcClean
    rw [agree_clean h hw hp]
  | random g order force answer =>
    show gcRandom order cwd t force answer g fs = Random.finish order d force answer fs (some g)
    unfold gcRandom Random.finish
    simp only
    split
    · rfl
    · refine agree_andThen hpd hw hp (by rw [agree_clean h hw hp]) (keeps_expectOk (keeps_clean ..)) fun fs hw hp => ?_
      refine agree_andThen hpd hw hp (by rw [agree_init h hw hp]) (keeps_expectOk (keeps_touch ..)) fun fs hw hp => ?_
      rw [agree_save h]

theorem spells_shape {cwd : FPath} {t : Text} {d : FPath} (h : Spells cwd t d) : Shape cwd (base cwd t) t d := spells_components h

theorem somewhere_base {cwd : FPath} {t : Text} {fs : FS} (hw : fs.WF) (h : Somewhere cwd t fs) : fs (base cwd t) = some .dir := by
  unfold base
  rcases h with h | h
  · rw [if_pos h]; exact hw.1
  · split
    · exact hw.1
    · exact h

end Paths
end GC
