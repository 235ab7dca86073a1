/-
The texts printed by gc-csp can be read back.
-/
import Verif.Proofs.Main
import Verif.Proofs.Cycle
namespace GC
namespace Main
open Text Store Args

theorem numeral_split {A B r s : Text} {x y : Char} {n m : Nat} (hA : Numeral A n) (hB : Numeral B m) (hx : isAsciiDigit x = false)
    (hy : isAsciiDigit y = false) (h : A ++ x :: r = B ++ y :: s) : n = m ∧ x = y ∧ r = s := by
  obtain ⟨h1, h2⟩ := digits_append hA.ascii hB.ascii hx hy h
  subst h1
  exact ⟨hA.unique hB, h2⟩

theorem showId_split {u v : VertexId} {x y : Char} {r s : Text} (hx : isAsciiDigit x = false) (hy : isAsciiDigit y = false)
    (h : showId u ++ x :: r = showId v ++ y :: s) : u = v ∧ x = y ∧ r = s := by
  obtain ⟨h1, h2⟩ := digits_append (showId_ascii u) (showId_ascii v) hx hy h
  exact ⟨showId_injective h1, h2⟩

theorem showNat_split {n m : Nat} {x y : Char} {r s : Text} (hn : n < 2 ^ 64) (hm : m < 2 ^ 64) (hx : isAsciiDigit x = false)
    (hy : isAsciiDigit y = false) (h : GcCycle.showNat n ++ x :: r = GcCycle.showNat m ++ y :: s) : n = m ∧ x = y ∧ r = s :=
  numeral_split (decimal_showNat hn).1 (decimal_showNat hm).1 hx hy h

theorem showInt_split {i j : Int} {x y : Char} {r s : Text} (hi : i.natAbs ≤ 2 ^ 63) (hj : j.natAbs ≤ 2 ^ 63) (hx : isAsciiDigit x = false)
    (hy : isAsciiDigit y = false) (h : showInt i ++ x :: r = showInt j ++ y :: s) : i = j ∧ x = y ∧ r = s := by
  have ni := (decimal_showFuel (n := i.natAbs) (by omega)).1
  have nj := (decimal_showFuel (n := j.natAbs) (by omega)).1
  have minus : ∀ {A B r s : Text} {y : Char} {n : Nat}, Numeral B n → '-' :: (A ++ r) = B ++ y :: s → False := by
    intro A B r s y n hB h
    obtain ⟨c, cs, rfl⟩ := List.exists_cons_of_ne_nil hB.ne_nil
    rw [List.cons_append, List.cons.injEq] at h
    have := hB.ascii c (by simp)
    rw [← h.1] at this
    exact absurd this (by decide)
  unfold showInt at h
  by_cases h1 : i < 0 <;> by_cases h2 : j < 0
  · rw [if_pos h1, if_pos h2, List.cons_append, List.cons_append, List.cons.injEq] at h
    obtain ⟨h3, h4⟩ := numeral_split ni nj hx hy h.2
    exact ⟨by omega, h4⟩
  · rw [if_pos h1, if_neg h2] at h
    exact (minus nj h).elim
  · rw [if_neg h1, if_pos h2] at h
    exact (minus ni h.symm).elim
  · rw [if_neg h1, if_neg h2] at h
    obtain ⟨h3, h4⟩ := numeral_split ni nj hx hy h
    exact ⟨by omega, h4⟩

theorem debugVertex_split {u v : VertexId} {r s : Text} (h : debugVertex u ++ r = debugVertex v ++ s) : u = v ∧ r = s := by
  unfold debugVertex at h
  rw [List.append_assoc, List.append_assoc, List.append_assoc, List.append_assoc] at h
  obtain ⟨h1, _, h2⟩ := showId_split (by decide) (by decide) (List.append_cancel_left h)
  exact ⟨h1, h2⟩

theorem debugEdge_split {a b : Edge} {r s : Text} (h : debugEdge a ++ r = debugEdge b ++ s) : a = b ∧ r = s := by
  unfold debugEdge at h
  simp only [List.append_assoc] at h
  obtain ⟨h1, h2⟩ := debugVertex_split (List.append_cancel_left h)
  obtain ⟨h3, h4⟩ := debugVertex_split (List.append_cancel_left h2)
  cases a; cases b
  simp only at h1 h3
  exact ⟨by rw [h1, h3], List.append_cancel_left h4⟩

theorem debugVertices_split {l m : List VertexId} {r s : Text} (h : debugVertices l ++ "])".toList ++ r = debugVertices m ++ "])".toList ++ s) :
    l = m ∧ r = s := by
  have hd : ∀ (v : VertexId) (t s : Text), "])".toList ++ s = debugVertex v ++ t → False := by
    intro v t s h
    have h1 : ("])".toList ++ s).head? = some ']' := rfl
    have h2 : (debugVertex v ++ t).head? = some 'V' := rfl
    rw [h, h2] at h1
    exact absurd h1 (by decide)
  induction l generalizing m with
  | nil =>
    cases m with
    | nil =>
      simp only [debugVertices, List.nil_append] at h
      exact ⟨rfl, List.append_cancel_left h⟩
    | cons w m =>
      cases m with
      | nil => simp only [debugVertices, List.append_assoc] at h; exact (hd _ _ _ h).elim
      | cons w' m => simp only [debugVertices, List.append_assoc] at h; exact (hd _ _ _ h).elim
  | cons v l ih =>
    have hone : ∀ (v : VertexId) (a t : Text), debugVertices [v] ++ a ++ t = debugVertex v ++ (a ++ t) := by
      intro v a t; rw [debugVertices, List.append_assoc]
    have htwo : ∀ (v w : VertexId) (m : List VertexId) (a t : Text),
        debugVertices (v :: w :: m) ++ a ++ t = debugVertex v ++ (", ".toList ++ (debugVertices (w :: m) ++ a ++ t)) := by
      intro v w m a t; rw [debugVertices]; simp only [List.append_assoc]
      intro e; cases e
    cases m with
    | nil =>
      cases l with
      | nil => rw [hone] at h; exact (hd _ _ _ h.symm).elim
      | cons w l => rw [htwo] at h; exact (hd _ _ _ h.symm).elim
    | cons w m =>
      cases l with
      | nil =>
        cases m with
        | nil =>
          rw [hone, hone] at h
          obtain ⟨h1, h2⟩ := debugVertex_split h
          exact ⟨by rw [h1], List.append_cancel_left h2⟩
        | cons w' m =>
          rw [hone, htwo] at h
          exact absurd (Option.some.inj (congrArg List.head? (debugVertex_split h).2)) (by decide)
      | cons v' l =>
        cases m with
        | nil =>
          rw [htwo, hone] at h
          exact absurd (Option.some.inj (congrArg List.head? (debugVertex_split h).2)) (by decide)
        | cons w' m =>
          rw [htwo, htwo] at h
          obtain ⟨h1, h2⟩ := debugVertex_split h
          obtain ⟨h3, h4⟩ := ih (List.append_cancel_left h2)
          exact ⟨by rw [h1, h3], h4⟩

/-- The variant of a constraint. -/
def variant : Constraint → Nat
  | .ContainsVertex _ => 0 | .ContainsEdge _ => 1 | .OrderedVertices _ => 2 | .ContainsCycle => 3 | .MinLength _ => 4 | .MaxLength _ => 5
  | .MinScore _ => 6 | .MaxScore _ => 7 | .Or _ _ => 8 | .Xor _ _ => 9 | .And _ _ => 10 | .Not _ => 11

/-- The variant printed at the beginning of a text, 12 for the report of gc-csp. -/
def variantOf : Text → Nat
  | 'C' :: 'o' :: 'n' :: 't' :: _ :: _ :: _ :: _ :: 'V' :: _ => 0
  | 'C' :: 'o' :: 'n' :: 't' :: _ :: _ :: _ :: _ :: 'E' :: _ => 1
  | 'C' :: 'o' :: 'n' :: 't' :: _ :: _ :: _ :: _ :: 'C' :: _ => 3
  | 'O' :: 'r' :: 'd' :: _ => 2
  | 'O' :: 'r' :: '(' :: _ => 8
  | 'M' :: 'i' :: 'n' :: 'L' :: _ => 4
  | 'M' :: 'a' :: 'x' :: 'L' :: _ => 5
  | 'M' :: 'i' :: 'n' :: 'S' :: _ => 6
  | 'M' :: 'a' :: 'x' :: 'S' :: _ => 7
  | 'X' :: _ => 9
  | 'A' :: _ => 10
  | 'N' :: _ => 11
  | _ => 12

theorem variantOf_debug (c : Constraint) (r : Text) : variantOf (debugConstraint c ++ r) = variant c := by cases c <;> rfl

theorem variantOf_cspText (s e : VertexId) (r : Option ScoredPath) : variantOf (cspText s e r) = 12 := by cases r <;> rfl

theorem variant_inv (d : Constraint) : match variant d with
    | 0 => ∃ a, d = .ContainsVertex a
    | 1 => ∃ a, d = .ContainsEdge a
    | 2 => ∃ a, d = .OrderedVertices a
    | 3 => d = .ContainsCycle
    | 4 => ∃ a, d = .MinLength a
    | 5 => ∃ a, d = .MaxLength a
    | 6 => ∃ a, d = .MinScore a
    | 7 => ∃ a, d = .MaxScore a
    | 8 => ∃ a b, d = .Or a b
    | 9 => ∃ a b, d = .Xor a b
    | 10 => ∃ a b, d = .And a b
    | 11 => ∃ a, d = .Not a
    | _ => False := by
  cases d
  case ContainsVertex => exact ⟨_, rfl⟩
  case ContainsEdge => exact ⟨_, rfl⟩
  case OrderedVertices => exact ⟨_, rfl⟩
  case ContainsCycle => exact rfl
  case MinLength => exact ⟨_, rfl⟩
  case MaxLength => exact ⟨_, rfl⟩
  case MinScore => exact ⟨_, rfl⟩
  case MaxScore => exact ⟨_, rfl⟩
  case Or => exact ⟨_, _, rfl⟩
  case Xor => exact ⟨_, _, rfl⟩
  case And => exact ⟨_, _, rfl⟩
  case Not => exact ⟨_, rfl⟩

theorem debug_ContainsVertex (a : VertexId) : debugConstraint (.ContainsVertex a) = "ContainsVertex(".toList ++ debugVertex a ++ [')'] := rfl
theorem debug_ContainsEdge (a : Edge) : debugConstraint (.ContainsEdge a) = "ContainsEdge(".toList ++ debugEdge a ++ [')'] := rfl
theorem debug_MinLength (a : Nat) : debugConstraint (.MinLength a) = "MinLength(".toList ++ GcCycle.showNat a ++ [')'] := rfl
theorem debug_MaxLength (a : Nat) : debugConstraint (.MaxLength a) = "MaxLength(".toList ++ GcCycle.showNat a ++ [')'] := rfl
theorem debug_MinScore (a : Int) : debugConstraint (.MinScore a) = "MinScore(".toList ++ showInt a ++ [')'] := rfl
theorem debug_MaxScore (a : Int) : debugConstraint (.MaxScore a) = "MaxScore(".toList ++ showInt a ++ [')'] := rfl
theorem debug_Or (a b : Constraint) : debugConstraint (.Or a b) = "Or(".toList ++ debugConstraint a ++ ", ".toList ++ debugConstraint b ++ [')'] := rfl
theorem debug_Xor (a b : Constraint) : debugConstraint (.Xor a b) = "Xor(".toList ++ debugConstraint a ++ ", ".toList ++ debugConstraint b ++ [')'] := rfl
theorem debug_And (a b : Constraint) : debugConstraint (.And a b) = "And(".toList ++ debugConstraint a ++ ", ".toList ++ debugConstraint b ++ [')'] := rfl
theorem debug_Not (a : Constraint) : debugConstraint (.Not a) = "Not(".toList ++ debugConstraint a ++ [')'] := rfl
theorem debug_OrderedVertices (a : List VertexId) : debugConstraint (.OrderedVertices a) = "OrderedVertices([".toList ++ debugVertices a ++ "])".toList := rfl

theorem variant_eq (c d : Constraint) (r s : Text) (h : debugConstraint c ++ r = debugConstraint d ++ s) : variant c = variant d := by
  rw [← variantOf_debug c r, h, variantOf_debug]

/-- A printed constraint can be read back, whatever follows. -/
theorem debugConstraint_split {c d : Constraint} (hc : InRange c) (hd : InRange d) {r s : Text}
    (h : debugConstraint c ++ r = debugConstraint d ++ s) : c = d ∧ r = s := by
  induction c generalizing d r s with
  | ContainsVertex v =>
    have hv := variant_eq _ _ _ _ h
    have hi := variant_inv d
    rw [← hv] at hi
    obtain ⟨w, rfl⟩ := hi
    rw [debug_ContainsVertex, debug_ContainsVertex] at h
    simp only [List.append_assoc] at h
    replace h := List.append_cancel_left h
    obtain ⟨h1, h2⟩ := debugVertex_split h
    rw [List.append_right_inj] at h2
    exact ⟨by rw [h1], h2⟩
  | ContainsEdge e =>
    have hv := variant_eq _ _ _ _ h
    have hi := variant_inv d
    rw [← hv] at hi
    obtain ⟨w, rfl⟩ := hi
    rw [debug_ContainsEdge, debug_ContainsEdge] at h
    simp only [List.append_assoc] at h
    replace h := List.append_cancel_left h
    obtain ⟨h1, h2⟩ := debugEdge_split h
    rw [List.append_right_inj] at h2
    exact ⟨by rw [h1], h2⟩
  | OrderedVertices vs =>
    have hv := variant_eq _ _ _ _ h
    have hi := variant_inv d
    rw [← hv] at hi
    obtain ⟨ws, rfl⟩ := hi
    rw [debug_OrderedVertices, debug_OrderedVertices] at h
    simp only [List.append_assoc] at h
    replace h := List.append_cancel_left h
    rw [← List.append_assoc, ← List.append_assoc] at h
    obtain ⟨h1, h2⟩ := debugVertices_split h
    exact ⟨by rw [h1], h2⟩
  | ContainsCycle =>
    have hv := variant_eq _ _ _ _ h
    have hi := variant_inv d
    rw [← hv] at hi
    subst hi
    replace h := List.append_cancel_left h
    exact ⟨rfl, h⟩
  | MinLength n =>
    have hv := variant_eq _ _ _ _ h
    have hi := variant_inv d
    rw [← hv] at hi
    obtain ⟨m, rfl⟩ := hi
    rw [debug_MinLength, debug_MinLength] at h
    simp only [List.append_assoc] at h
    replace h := List.append_cancel_left h
    obtain ⟨h1, _, h2⟩ := showNat_split hc hd (by decide) (by decide) h
    exact ⟨by rw [h1], h2⟩
  | MaxLength n =>
    have hv := variant_eq _ _ _ _ h
    have hi := variant_inv d
    rw [← hv] at hi
    obtain ⟨m, rfl⟩ := hi
    rw [debug_MaxLength, debug_MaxLength] at h
    simp only [List.append_assoc] at h
    replace h := List.append_cancel_left h
    obtain ⟨h1, _, h2⟩ := showNat_split hc hd (by decide) (by decide) h
    exact ⟨by rw [h1], h2⟩
  | MinScore n =>
    have hv := variant_eq _ _ _ _ h
    have hi := variant_inv d
    rw [← hv] at hi
    obtain ⟨m, rfl⟩ := hi
    rw [debug_MinScore, debug_MinScore] at h
    simp only [List.append_assoc] at h
    replace h := List.append_cancel_left h
    obtain ⟨h1, _, h2⟩ := showInt_split hc hd (by decide) (by decide) h
    exact ⟨by rw [h1], h2⟩
  | MaxScore n =>
    have hv := variant_eq _ _ _ _ h
    have hi := variant_inv d
    rw [← hv] at hi
    obtain ⟨m, rfl⟩ := hi
    rw [debug_MaxScore, debug_MaxScore] at h
    simp only [List.append_assoc] at h
    replace h := List.append_cancel_left h
    obtain ⟨h1, _, h2⟩ := showInt_split hc hd (by decide) (by decide) h
    exact ⟨by rw [h1], h2⟩
  | Or c1 c2 ih1 ih2 =>
    have hv := variant_eq _ _ _ _ h
    have hi := variant_inv d
    rw [← hv] at hi
    obtain ⟨d1, d2, rfl⟩ := hi
    rw [debug_Or, debug_Or] at h
    simp only [List.append_assoc] at h
    replace h := List.append_cancel_left h
    obtain ⟨h1, h2⟩ := ih1 hc.1 hd.1 h
    rw [List.append_right_inj] at h2
    obtain ⟨h3, h4⟩ := ih2 hc.2 hd.2 h2
    rw [List.append_right_inj] at h4
    exact ⟨by rw [h1, h3], h4⟩
  | Xor c1 c2 ih1 ih2 =>
    have hv := variant_eq _ _ _ _ h
    have hi := variant_inv d
    rw [← hv] at hi
    obtain ⟨d1, d2, rfl⟩ := hi
    rw [debug_Xor, debug_Xor] at h
    simp only [List.append_assoc] at h
    replace h := List.append_cancel_left h
    obtain ⟨h1, h2⟩ := ih1 hc.1 hd.1 h
    rw [List.append_right_inj] at h2
    obtain ⟨h3, h4⟩ := ih2 hc.2 hd.2 h2
    rw [List.append_right_inj] at h4
    exact ⟨by rw [h1, h3], h4⟩
  | And c1 c2 ih1 ih2 =>
    have hv := variant_eq _ _ _ _ h
    have hi := variant_inv d
    rw [← hv] at hi
    obtain ⟨d1, d2, rfl⟩ := hi
    rw [debug_And, debug_And] at h
    simp only [List.append_assoc] at h
    replace h := List.append_cancel_left h
    obtain ⟨h1, h2⟩ := ih1 hc.1 hd.1 h
    rw [List.append_right_inj] at h2
    obtain ⟨h3, h4⟩ := ih2 hc.2 hd.2 h2
    rw [List.append_right_inj] at h4
    exact ⟨by rw [h1, h3], h4⟩
  | Not c ih =>
    have hv := variant_eq _ _ _ _ h
    have hi := variant_inv d
    rw [← hv] at hi
    obtain ⟨d, rfl⟩ := hi
    rw [debug_Not, debug_Not] at h
    simp only [List.append_assoc] at h
    replace h := List.append_cancel_left h
    obtain ⟨h1, h2⟩ := ih hc (show InRange d from hd) h
    rw [List.append_right_inj] at h2
    exact ⟨by rw [h1], h2⟩

/-- No line of the report of gc-csp looks like a constraint. -/
theorem cspText_ne_debug (s e : VertexId) (r : Option ScoredPath) (c : Constraint) (t : Text) : cspText s e r ≠ debugConstraint c ++ t := by
  intro h
  have := variantOf_cspText s e r
  rw [h, variantOf_debug] at this
  cases c <;> exact absurd this (by simp [variant])

theorem constraintsText_split {cs ds : List Constraint} (hc : ∀ c ∈ cs, InRange c) (hd : ∀ c ∈ ds, InRange c) {s e s' e' : VertexId}
    {r r' : Option ScoredPath} (h : constraintsText cs ++ cspText s e r = constraintsText ds ++ cspText s' e' r') :
    cs = ds ∧ cspText s e r = cspText s' e' r' := by
  unfold constraintsText at h
  rw [List.append_assoc, List.append_assoc] at h
  replace h := List.append_cancel_left h
  induction cs generalizing ds with
  | nil =>
    cases ds with
    | nil => exact ⟨rfl, h⟩
    | cons d ds =>
      simp only [List.flatMap_nil, List.nil_append, List.flatMap_cons, List.append_assoc] at h
      exact (cspText_ne_debug _ _ _ _ _ h).elim
  | cons c cs ih =>
    cases ds with
    | nil =>
      simp only [List.flatMap_nil, List.nil_append, List.flatMap_cons, List.append_assoc] at h
      exact (cspText_ne_debug _ _ _ _ _ h.symm).elim
    | cons d ds =>
      simp only [List.flatMap_cons, List.append_assoc] at h
      obtain ⟨h1, h2⟩ := debugConstraint_split (hc c (by simp)) (hd d (by simp)) h
      obtain ⟨h3, h4⟩ := ih (fun c hm => hc c (by simp [hm])) (fun c hm => hd c (by simp [hm])) (List.append_cancel_left h2)
      exact ⟨by rw [h1, h3], h4⟩

theorem vertexLines_injective {l m : List VertexId} (h : vertexLines l = vertexLines m) : l = m :=
  printedIds_injective (sep := '\n') (by decide) (printedIds '\n' l) (by
    have := printedIds '\n' m
    unfold vertexLines at h
    rw [h]
    exact this)

theorem cspText_head (s e : VertexId) (r : Option ScoredPath) : (cspText s e r).head? = some (if r.isSome then 'C' else 'V') := by
  cases r <;> rfl

theorem cspText_injective {s e s' e' : VertexId} {r r' : Option ScoredPath}
    (hr : ∀ sp, r = some sp → sp.score.natAbs ≤ 2 ^ 63) (hr' : ∀ sp, r' = some sp → sp.score.natAbs ≤ 2 ^ 63)
    (h : cspText s e r = cspText s' e' r') : s = s' ∧ e = e' ∧ r = r' := by
  have hsp : " to vertex ".toList = ' ' :: "to vertex ".toList := rfl
  have hcost : " with total cost of ".toList = ' ' :: "with total cost of ".toList := rfl
  have hdot : ".\n".toList = '.' :: "\n".toList := rfl
  have hnot : " is not reachable from vertex ".toList = ' ' :: "is not reachable from vertex ".toList := rfl
  have hwithin : " within the given constraints.\n".toList = ' ' :: "within the given constraints.\n".toList := rfl
  cases r with
  | none =>
    cases r' with
    | none =>
      unfold cspText at h
      simp only [List.append_assoc] at h
      rw [hnot, hwithin, List.append_right_inj] at h
      simp only [List.cons_append] at h
      obtain ⟨h1, _, h2⟩ := showId_split (by decide) (by decide) h
      rw [List.append_right_inj] at h2
      obtain ⟨h3, _⟩ := showId_split (by decide) (by decide) h2
      exact ⟨h3, h1, rfl⟩
    | some sp => exact absurd (congrArg List.head? h) (by rw [cspText_head, cspText_head]; simp)
  | some sp =>
    cases r' with
    | none => exact absurd (congrArg List.head? h) (by rw [cspText_head, cspText_head]; simp)
    | some sp' =>
      unfold cspText at h
      simp only [List.append_assoc] at h
      rw [hsp, hcost, hdot, List.append_right_inj] at h
      simp only [List.cons_append] at h
      obtain ⟨h1, _, h2⟩ := showId_split (by decide) (by decide) h
      rw [List.append_right_inj] at h2
      obtain ⟨h3, _, h4⟩ := showId_split (by decide) (by decide) h2
      rw [List.append_right_inj] at h4
      obtain ⟨h5, _, h6⟩ := showInt_split (hr _ rfl) (hr' _ rfl) (by decide) (by decide) h4
      rw [List.append_right_inj] at h6
      have h7 := vertexLines_injective h6
      obtain ⟨⟨l⟩, a⟩ := sp
      obtain ⟨⟨l'⟩, a'⟩ := sp'
      simp only at h5 h7
      exact ⟨h1, h3, by rw [h5, h7]⟩

end Main
end GC
