/-
Helper lemmas for the query commands.
-/
import Verif.Spec.Main
import Verif.Proofs.Store
import Verif.Proofs.Args
import Verif.Proofs.Prog
import Verif.Proofs.Path
namespace GC
namespace Main
open Text Store Args DirectedGraph

theorem digitChar_zero {d : Nat} (h : d < 10) (e : digitChar d = '0') : d = 0 := by
  have : ∀ d < 10, digitChar d = '0' → d = 0 := by decide
  exact this d h e

theorem showFuel_head (f n : Nat) (h : n < 10 ^ (f + 1)) : (showFuel (f + 1) n).head? = some '0' → n = 0 := by
  induction f generalizing n with
  | zero =>
    have : n < 10 := by simpa using h
    simp only [showFuel, this, if_true, List.head?_cons, Option.some.injEq]
    exact digitChar_zero this
  | succ f ih =>
    rw [showFuel]
    split
    · rename_i h
      simp only [List.head?_cons, Option.some.injEq]
      exact digitChar_zero h
    · rename_i hn
      intro e
      have hlt : n / 10 < 10 ^ (f + 1) := by rw [Nat.div_lt_iff_lt_mul (by omega)]; rw [← Nat.pow_succ]; exact h
      have hne := (numeral_showFuel f (n / 10) hlt).ne_nil
      rw [List.head?_append_of_ne_nil _ hne] at e
      have := ih (n / 10) hlt e
      omega

theorem decimal_showFuel {n : Nat} (h : n < 2 ^ 64) : Decimal (showFuel 20 n) n := by
  have h2 : 2 ^ 64 < 10 ^ (19 + 1) := by decide
  refine ⟨numeral_showFuel 19 n (by omega), fun e => ?_⟩
  have := showFuel_head 19 n (by omega) e
  subst this
  rfl

theorem decimal_showNat {n : Nat} (h : n < 2 ^ 64) : Decimal (GcCycle.showNat n) n := by
  have e : (UInt64.ofNat n).toNat = n := by rw [UInt64.toNat_ofNat']; exact Nat.mod_eq_of_lt h
  unfold GcCycle.showNat showU64
  rw [e]
  exact decimal_showFuel h

theorem decimal_showId (v : VertexId) : Decimal (showId v) v.id.toNat := decimal_showFuel v.id.toNat_lt

theorem printedIds (sep : Char) (vs : List VertexId) : PrintedIds sep vs (vs.flatMap fun v => showId v ++ [sep]) := by
  induction vs with
  | nil => exact .nil
  | cons v vs ih =>
    have := PrintedIds.cons (sep := sep) (decimal_showId v) ih
    simpa using this

theorem decimal_showInt {l : List VertexId} (hne : l ≠ []) (h : l.length ≤ 2 ^ 63) : Decimal (showInt ((l.length : Int) - 1)) (l.length - 1) := by
  have hpos : 0 < l.length := List.length_pos_iff.2 hne
  have e : ((l.length : Int) - 1) = ((l.length - 1 : Nat) : Int) := by omega
  rw [e]
  unfold showInt
  rw [if_neg (by omega), Int.natAbs_natCast]
  exact decimal_showFuel (by omega)

/-- The same ids are printed as the same text only. -/
theorem printedIds_injective {sep : Char} (hsep : isAsciiDigit sep = false) {vs ws : List VertexId} {t : Text} (h1 : PrintedIds sep vs t)
    (h2 : PrintedIds sep ws t) : vs = ws := by
  induction h1 generalizing ws with
  | nil =>
    generalize e : ([] : Text) = t at h2
    cases h2 with
    | nil => rfl
    | cons _ _ => simp at e
  | @cons v vs t rest hd _ ih =>
    generalize e : t ++ sep :: rest = t' at h2
    cases h2 with
    | nil => simp at e
    | @cons w ws t2 rest2 hd2 h2 =>
      have hcut : ∀ (a b ra rb : Text), (∀ c ∈ a, isAsciiDigit c = true) → (∀ c ∈ b, isAsciiDigit c = true) →
          a ++ sep :: ra = b ++ sep :: rb → a = b ∧ ra = rb := by
        intro a
        induction a with
        | nil =>
          intro b ra rb _ hb e
          cases b with
          | nil => exact ⟨rfl, by simpa using e⟩
          | cons c b =>
            simp only [List.nil_append, List.cons_append, List.cons.injEq] at e
            have := hb c (by simp)
            rw [← e.1, hsep] at this
            cases this
        | cons c a iha =>
          intro b ra rb ha hb e
          cases b with
          | nil =>
            simp only [List.nil_append, List.cons_append, List.cons.injEq] at e
            have := ha c (by simp)
            rw [e.1, hsep] at this
            cases this
          | cons d b =>
            simp only [List.cons_append, List.cons.injEq] at e
            obtain ⟨h1, h2⟩ := iha b ra rb (fun c hc => ha c (by simp [hc])) (fun c hc => hb c (by simp [hc])) e.2
            exact ⟨by rw [e.1, h1], h2⟩
      obtain ⟨e1, e2⟩ := hcut _ _ _ _ hd.1.ascii hd2.1.ascii e
      subst e1 e2
      have hv := Numeral.unique hd.1 hd2.1
      have : v = w := by
        have := UInt64.toNat_inj.1 hv
        cases v; cases w; simp_all
      rw [this, ih h2]

theorem adj_order {order : DirectedGraph → DirectedGraph} (ho : IsOrder order) {g : DirectedGraph} (hg : Built g) :
    Built (order g) ∧ (∀ u v, Adj (order g) u v ↔ Adj g u v) ∧ (∀ v, (order g).containsVertex v = true ↔ g.containsVertex v = true) ∧
    (order g).vertexCount = g.vertexCount := by
  have hs : (order g).toSet = g.toSet := toSet_perm hg.wf (ho g)
  refine ⟨hg.reorder (ho g), ?_, ?_, ?_⟩
  · intro u v
    exact iff_of_eq (congrFun (congrArg SetGraph.E hs) ⟨u, v⟩)
  · intro v
    exact iff_of_eq (congrFun (congrArg SetGraph.V hs) v)
  · have := (ho g).length_eq
    simp only [vertexCount] at *
    exact this.symm

theorem adj_order_eq {order : DirectedGraph → DirectedGraph} (ho : IsOrder order) {g : DirectedGraph} (hg : Built g) :
    Adj (order g) = Adj g := by
  funext u v
  exact propext ((adj_order ho hg).2.1 u v)

theorem walk_order {order : DirectedGraph → DirectedGraph} (ho : IsOrder order) {g : DirectedGraph} (hg : Built g) {u v : VertexId}
    {l : List VertexId} : WalkFromTo (order g) u v l ↔ WalkFromTo g u v l := by
  unfold WalkFromTo
  rw [adj_order_eq ho hg]

theorem bind_inv {α β : Type} {p : Prog α} {f : α → Prog β} {b : β} (hm : Mono p) (h : Returns (Prog.bind p f) b) :
    ∃ a, Returns p a ∧ Returns (f a) b := by
  obtain ⟨n, hn⟩ := h
  have h1 := hn n (Nat.le_refl _)
  unfold Prog.bind at h1
  obtain ⟨a, ha, _⟩ := Run.bind_eq_done.1 h1
  have hr := hm.returns ha
  exact ⟨a, hr, hr.of_bind_left ⟨n, hn⟩⟩

theorem loadedGraph_ok {nd : Char → Bool} {order : DirectedGraph → DirectedGraph} {root : FPath} {fs : FS} {g : DirectedGraph}
    (h : loadGraph nd root fs = .done (.ok g)) : Returns (loadedGraph nd order root fs) (order g) := by
  unfold loadedGraph
  rw [h]
  exact Returns.lift_done _

theorem readAsCommands_not_running (nd : Char → Bool) (content : Text) :
    Format.readAsCommands (Format.Gcmd.parseLine nd) content ≠ .running := by
  rcases readLoop_cases (gcmd_no_running nd) (lines content) with ⟨cs, h⟩ | ⟨b, l, a, cs, h1, h2, h3, h4⟩
  · rw [readAsCommands_of_readsAs h]; simp
  · have h5 := readAsCommands_bad h1 h2 h3
    rcases h4 with h4 | ⟨msg, h4⟩
    · rw [h5.1 h4]; simp
    · rw [h5.2 msg h4]; simp

theorem loadGraph_not_running {nd : Char → Bool} {root : FPath} {fs : FS} : loadGraph nd root fs ≠ .running := by
  unfold loadGraph
  split
  · simp
  · simp
  · rename_i content _
    intro h
    unfold Format.Gcmd.read Format.read at h
    cases hr : Format.readAsCommands (Format.Gcmd.parseLine nd) content with
    | running => exact absurd hr (readAsCommands_not_running nd content)
    | panicked => rw [hr] at h; cases h
    | done r =>
      rw [hr] at h
      cases r <;> cases h

theorem loadedGraph_fails {nd : Char → Bool} {order : DirectedGraph → DirectedGraph} {root : FPath} {fs : FS}
    (h : ∀ g, loadGraph nd root fs ≠ .done (.ok g)) : Panics (loadedGraph nd order root fs) := by
  refine ⟨0, fun n _ => ?_⟩
  unfold loadedGraph Prog.lift
  cases hr : loadGraph nd root fs with
  | running => exact absurd hr loadGraph_not_running
  | panicked => rfl
  | done r =>
    cases r with
    | ok g => exact absurd hr (h g)
    | error e => rfl

theorem endpoint_ok {arg : Text} {v : VertexId} (h : ArgId arg v) : endpoint arg = .done v := by
  unfold endpoint
  have h : parseVertexId arg = some v.id := parseVertexId_iff.2 h
  rw [h]
  rfl

theorem endpoint_fails {arg : Text} (h : ∀ v, ¬ ArgId arg v) : endpoint arg = .panicked := by
  unfold endpoint
  cases e : parseVertexId arg with
  | none => rfl
  | some x => exact absurd (parseVertexId_iff.1 e) (h ⟨x⟩)

end Main
end GC
