/-
Lemmas about command-line arguments.
-/
import Verif.Spec.Args
import Verif.Proofs.Text
import Verif.Proofs.Path
import Verif.Proofs.Prog
import Mathlib.Tactic.Tauto
namespace GC
open Text Args

theorem not_numeral_plus {r : Text} {n : Nat} : ¬ Numeral ('+' :: r) n := by
  intro h
  exact absurd (h.ascii '+' (by simp)) (by decide)

theorem not_numeral_minus {r : Text} {n : Nat} : ¬ Numeral ('-' :: r) n := by
  intro h
  exact absurd (h.ascii '-' (by simp)) (by decide)

theorem signed_digits {s : Text} {n : Nat} {P : Nat → Prop} :
    (∃ ds, (s = ds ∨ s = '+' :: ds) ∧ Numeral ds n ∧ P n) ↔
      (parseDigits (stripPlus s) = some n ∧ P n) := by
  rw [parseDigits_eq]
  constructor
  · rintro ⟨ds, rfl | rfl, h, hp⟩
    · unfold stripPlus
      split
      · exact absurd h not_numeral_plus
      · exact ⟨h, hp⟩
    · exact ⟨h, hp⟩
  · rintro ⟨h, hp⟩
    unfold stripPlus at h
    split at h
    · exact ⟨_, .inr rfl, h, hp⟩
    · exact ⟨_, .inl rfl, h, hp⟩

theorem parseU64_iff {s : Text} {x : UInt64} : parseU64 s = some x ↔ ArgNat s x.toNat := by
  unfold ArgNat
  rw [signed_digits (P := fun n => n < 2 ^ 64)]
  unfold parseU64
  split
  · rename_i n hn
    rw [hn]
    by_cases h : n < 2 ^ 64
    · rw [if_pos h]
      constructor
      · intro he
        cases he
        simp only [UInt64.toNat_ofNat', Nat.mod_eq_of_lt h]
        exact ⟨trivial, h⟩
      · rintro ⟨he, _⟩
        cases he
        simp
    · rw [if_neg h]
      constructor
      · intro he; cases he
      · rintro ⟨he, hx⟩
        cases he
        exact absurd hx h
  · rename_i hn
    rw [hn]
    simp

theorem parseVertexId_iff {s : Text} {x : UInt64} : parseVertexId s = some x ↔ ArgId s ⟨x⟩ := parseU64_iff

theorem parseUsize_iff {s : Text} {n : Nat} : parseUsize s = some n ↔ ArgNat s n := by
  unfold parseUsize
  rw [Option.map_eq_some_iff]
  constructor
  · rintro ⟨x, hx, rfl⟩
    exact parseU64_iff.1 hx
  · intro h
    have hn : n < 2 ^ 64 := by
      obtain ⟨_, _, _, h⟩ := h
      exact h
    have e : (UInt64.ofNat n).toNat = n := by
      simp only [UInt64.toNat_ofNat']
      exact Nat.mod_eq_of_lt hn
    exact ⟨UInt64.ofNat n, parseU64_iff.2 (by rwa [e]), e⟩

theorem parseI64_iff {s : Text} {i : Int} : parseI64 s = some i ↔ ArgInt s i := by
  unfold parseI64 ArgInt
  split
  · rename_i r
    constructor
    · intro h
      split at h
      · rename_i n hn
        split at h
        · cases h
          exact .inr ⟨r, n, rfl, parseDigits_eq.1 hn, by assumption, rfl⟩
        · cases h
      · cases h
    · rintro (⟨ds, n, (rfl | h), hn, _, rfl⟩ | ⟨ds, n, h, hn, hb, rfl⟩)
      · exact absurd hn not_numeral_minus
      · simp at h
      · simp only [List.cons.injEq, true_and] at h
        subst h
        rw [parseDigits_eq.2 hn]
        simp only
        rw [if_pos hb]
  · rename_i hs
    have key := fun n => signed_digits (s := s) (n := n) (P := fun n => n < 2 ^ 63)
    constructor
    · intro h
      left
      split at h
      · rename_i n hn
        split at h
        · cases h
          obtain ⟨ds, h1, h2, h3⟩ := (key n).2 ⟨hn, by assumption⟩
          exact ⟨ds, n, h1, h2, h3, rfl⟩
        · cases h
      · cases h
    · rintro (⟨ds, n, h, hn, hb, rfl⟩ | ⟨ds, n, h, _⟩)
      · obtain ⟨h1, h2⟩ := (key n).1 ⟨ds, h, hn, hb⟩
        rw [h1]
        simp only
        rw [if_pos h2]
      · exact absurd h (hs ds)

theorem parseVertexIdLoop_iff {l : List Text} {res vs : List VertexId} :
    parseVertexIdLoop l res = some vs ↔ ∃ ws, vs = res ++ ws ∧ ArgIds l ws := by
  induction l generalizing res with
  | nil =>
    simp only [parseVertexIdLoop, Option.some.injEq]
    constructor
    · rintro rfl; exact ⟨[], by simp, .nil⟩
    · rintro ⟨ws, rfl, h⟩; cases h; simp
  | cons s l ih =>
    rw [parseVertexIdLoop]
    split
    · rename_i x hx
      rw [ih]
      constructor
      · rintro ⟨ws, rfl, h⟩
        exact ⟨⟨x⟩ :: ws, by simp, .cons (parseVertexId_iff.1 hx) h⟩
      · rintro ⟨ws, rfl, h⟩
        cases h with
        | @cons _ v _ ws hv h =>
          have : parseVertexId s = some v.id := parseVertexId_iff.2 hv
          rw [hx] at this
          cases this
          exact ⟨ws, by simp, h⟩
    · rename_i hx
      constructor
      · intro h; cases h
      · rintro ⟨ws, rfl, h⟩
        cases h with
        | @cons _ v _ ws hv h =>
          have : parseVertexId s = some v.id := parseVertexId_iff.2 hv
          rw [hx] at this
          cases this

theorem parseVertexIdList_iff {l : List Text} {vs : List VertexId} : parseVertexIdList l = some vs ↔ ArgIds l vs := by
  unfold parseVertexIdList
  rw [parseVertexIdLoop_iff]
  simp

theorem argEdges_iff : ∀ {n : Nat} {l : List Text} {es : List Edge}, l.length ≤ n →
    (ArgEdges l es ↔ ∃ vs, ArgIds l vs ∧ vs.length % 2 = 0 ∧ es = (pairUp vs).map fun p => ⟨p.1, p.2⟩)
  | n, [], es, _ => by
    constructor
    · intro h; cases h; exact ⟨[], .nil, rfl, rfl⟩
    · rintro ⟨vs, h, _, rfl⟩; cases h; exact .nil
  | n, [s], es, _ => by
    constructor
    · intro h; cases h
    · rintro ⟨vs, h, hl, rfl⟩
      cases h with
      | cons _ h => cases h; simp at hl
  | n + 2, s :: t :: l, es, hn => by
    have ih := fun es => argEdges_iff (n := n) (l := l) (es := es) (by simp at hn; omega)
    constructor
    · intro h
      cases h with
      | @cons _ _ a b _ es ha hb h =>
        obtain ⟨vs, h1, h2, rfl⟩ := (ih es).1 h
        exact ⟨a :: b :: vs, .cons ha (.cons hb h1), by simp; omega, rfl⟩
    · rintro ⟨vs, h, hl, rfl⟩
      cases h with
      | cons ha h =>
        cases h with
        | cons hb h =>
          refine .cons ha hb ((ih _).2 ⟨_, h, ?_, rfl⟩)
          simp at hl; omega
  | 1, _ :: _ :: _, _, hn => by simp at hn
  | 0, _ :: _ :: _, _, hn => by simp at hn

theorem parseEdgeList_iff {l : List Text} {es : List Edge} : parseEdgeList l = some es ↔ ArgEdges l es := by
  rw [argEdges_iff (Nat.le_refl _)]
  unfold parseEdgeList
  simp only [Option.map_eq_some_iff, Option.bind_eq_some_iff, parseVertexIdList_iff, asVertexTuple]
  constructor
  · rintro ⟨ps, ⟨vs, h1, h2⟩, rfl⟩
    split at h2
    · cases h2; exact ⟨vs, h1, by assumption, rfl⟩
    · cases h2
  · rintro ⟨vs, h1, h2, rfl⟩
    exact ⟨_, ⟨vs, h1, if_pos h2⟩, rfl⟩

theorem getElem?_pairUp : ∀ (vs : List VertexId) (k : Nat) (a b : VertexId),
    (pairUp vs)[k]? = some (a, b) ↔ vs[2 * k]? = some a ∧ vs[2 * k + 1]? = some b
  | [], k, a, b => by simp [pairUp]
  | [v], k, a, b => by simp [pairUp]
  | u :: v :: vs, 0, a, b => by simp [pairUp]
  | u :: v :: vs, k + 1, a, b => by
    have := getElem?_pairUp vs k a b
    simp only [pairUp, List.getElem?_cons_succ, this]
    rw [show 2 * (k + 1) = 2 * k + 2 from by omega]
    simp

theorem getD_of_lt {α : Type} (l : List α) (d : α) {i : Nat} (h : i < l.length) : l.getD i d = l[i] := by
  simp [List.getD, List.getElem?_eq_getElem h]

theorem pushAll_done {α β : Type} {f : α → Run β} {g : α → β} {l : List α} (h : ∀ a ∈ l, f a = .done (g a)) :
    pushAll f l = .done (l.map g) := by
  induction l with
  | nil => rfl
  | cons a l ih =>
    rw [pushAll, h a (by simp), Run.bind_done, ih fun x hx => h x (by simp [hx]), Run.bind_done]
    rfl

theorem indexPair_done {vs : List VertexId} {i j : Nat} (hi : i < vs.length) (hj : j < vs.length) :
    indexPair vs i j = .done (vs[i], vs[j]) := by
  unfold indexPair index
  rw [List.getElem?_eq_getElem hi, List.getElem?_eq_getElem hj]
  rfl

/-- All constraints of an optional list. -/
theorem forall_getD_map {α β : Type} {o : Option α} {f : α → List β} {P : β → Prop} :
    (∀ c ∈ (o.map f).getD [], P c) ↔ ∀ a, o = some a → ∀ c ∈ f a, P c := by
  cases o <;> simp

theorem forall_toList_map {α β : Type} {o : Option α} {f : α → β} {P : β → Prop} :
    (∀ c ∈ (o.map f).toList, P c) ↔ ∀ a, o = some a → P (f a) := by
  cases o <;> simp

theorem forall_bind {α β : Type} {o : Option α} {f : α → Option β} {P : β → Prop} :
    (∀ b, o.bind f = some b → P b) ↔ ∀ a b, o = some a → f a = some b → P b := by
  cases o with
  | none => simp
  | some a =>
    simp only [Option.bind_some, Option.some.injEq]
    exact ⟨fun h _ b e => e ▸ h b, fun h b => h a b rfl⟩

theorem bounds_meaning (minL maxL exL minS maxS exS : Option Text) (sp : ScoredPath) :
    ((∀ c ∈ ((minL.bind parseUsize).map buildMinLength).toList, Satisfies sp c) ∧
     (∀ c ∈ ((maxL.bind parseUsize).map buildMaxLength).toList, Satisfies sp c) ∧
     (∀ c ∈ ((exL.bind parseUsize).map buildExactLength).getD [], Satisfies sp c) ∧
     (∀ c ∈ ((minS.bind parseI64).map buildMinScore).toList, Satisfies sp c) ∧
     (∀ c ∈ ((maxS.bind parseI64).map buildMaxScore).toList, Satisfies sp c) ∧
     (∀ c ∈ ((exS.bind parseI64).map buildExactScore).getD [], Satisfies sp c)) ↔
    (MeetsBounds minL maxL exL minS exS sp ∧ ∀ s i, maxS = some s → ArgInt s i → i ≤ sp.score) := by
  have h3 : (∀ c ∈ ((exL.bind parseUsize).map buildExactLength).getD [], Satisfies sp c) ↔
      (∀ s n, exL = some s → ArgNat s n → sp.path.vertices.length = n) := by
    rw [forall_getD_map, forall_bind]
    simp only [parseUsize_iff, buildExactLength, List.mem_cons, List.not_mem_nil, or_false, forall_eq_or_imp, forall_eq, Satisfies]
    constructor
    · intro h s n hs hn; obtain ⟨h1, h2⟩ := h s n hs hn; omega
    · intro h s n hs hn; have := h s n hs hn; omega
  have h6 : (∀ c ∈ ((exS.bind parseI64).map buildExactScore).getD [], Satisfies sp c) ↔
      (∀ s i, exS = some s → ArgInt s i → sp.score = i) := by
    rw [forall_getD_map, forall_bind]
    simp only [parseI64_iff, buildExactScore, List.mem_cons, List.not_mem_nil, or_false, forall_eq_or_imp, forall_eq, Satisfies]
    constructor
    · intro h s n hs hn; obtain ⟨h1, h2⟩ := h s n hs hn; omega
    · intro h s n hs hn; have := h s n hs hn; omega
  rw [h3, h6]
  simp only [forall_toList_map, forall_bind, parseUsize_iff, parseI64_iff, buildMinLength, buildMaxLength, buildMinScore, buildMaxScore,
    Satisfies, MeetsBounds]
  tauto

end GC
