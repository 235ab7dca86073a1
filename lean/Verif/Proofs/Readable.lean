/-
The messages and the answers can be read back.
-/
import Verif.Proofs.Debug
import Verif.Model.Messages
import Verif.Spec.Constraint
namespace GC
namespace Main
open Text Store Args

/-- Printed items can be told apart by what follows, and none begins with a closing bracket. -/
structure Items {α : Type} (f : α → Text) (P : α → Prop) : Prop where
  split : ∀ {a b : α}, P a → P b → ∀ {x y : Char} {r s : Text}, x = ',' ∨ x = ']' → y = ',' ∨ y = ']' → f a ++ x :: r = f b ++ y :: s →
    a = b ∧ x = y ∧ r = s
  head : ∀ a, P a → ∀ {r s : Text}, f a ++ r = ']' :: s → False

theorem debugItems_cons {α : Type} (f : α → Text) (a : α) (l : List α) (r : Text) :
    debugItems f (a :: l) ++ ']' :: r = f a ++ (match l with | [] => ']' :: r | _ :: _ => ',' :: ' ' :: (debugItems f l ++ ']' :: r)) := by
  cases l with
  | nil => rfl
  | cons b l =>
    rw [debugItems]
    · simp only [List.append_assoc, show ", ".toList = [',', ' '] from rfl, List.cons_append, List.nil_append]
    · intro e; cases e

theorem debugItems_split {α : Type} {f : α → Text} {P : α → Prop} (h : Items f P) {l m : List α} (hl : ∀ a ∈ l, P a) (hm : ∀ a ∈ m, P a)
    {r s : Text} (e : debugItems f l ++ ']' :: r = debugItems f m ++ ']' :: s) : l = m ∧ r = s := by
  induction l generalizing m with
  | nil =>
    cases m with
    | nil => exact ⟨rfl, (List.cons.inj e).2⟩
    | cons b m =>
      rw [debugItems_cons] at e
      exact (h.head b (hm b (by simp)) e.symm).elim
  | cons a l ih =>
    cases m with
    | nil =>
      rw [debugItems_cons] at e
      exact (h.head a (hl a (by simp)) e).elim
    | cons b m =>
      rw [debugItems_cons, debugItems_cons] at e
      have ha := hl a (by simp)
      have hb := hm b (by simp)
      cases l with
      | nil =>
        cases m with
        | nil =>
          obtain ⟨h1, _, h2⟩ := h.split ha hb (.inr rfl) (.inr rfl) e
          exact ⟨by rw [h1], h2⟩
        | cons b' m => exact absurd (h.split ha hb (.inr rfl) (.inl rfl) e).2.1 (by decide)
      | cons a' l =>
        cases m with
        | nil => exact absurd (h.split ha hb (.inl rfl) (.inr rfl) e).2.1 (by decide)
        | cons b' m =>
          obtain ⟨h1, _, h2⟩ := h.split ha hb (.inl rfl) (.inl rfl) e
          obtain ⟨h3, h4⟩ := ih (fun x hx => hl x (by simp [hx])) (fun x hx => hm x (by simp [hx])) (List.cons.inj h2).2
          exact ⟨by rw [h1, h3], h4⟩

theorem debugVec_split {α : Type} {f : α → Text} {P : α → Prop} (h : Items f P) {l m : List α} (hl : ∀ a ∈ l, P a) (hm : ∀ a ∈ m, P a)
    {r s : Text} (e : debugVec f l ++ r = debugVec f m ++ s) : l = m ∧ r = s := by
  unfold debugVec at e
  simp only [List.append_assoc, List.cons_append, List.nil_append, List.cons.injEq, true_and] at e
  exact debugItems_split h hl hm e

theorem not_digit {x : Char} (h : x = ',' ∨ x = ']') : isAsciiDigit x = false := by rcases h with rfl | rfl <;> decide

theorem items_vertex : Items debugVertex fun _ => True where
  split _ _ _ _ _ _ _ _ e := by
    obtain ⟨h1, h2⟩ := debugVertex_split e
    exact ⟨h1, List.cons.inj h2⟩
  head a _ _ _ e := by
    have : (debugVertex a).head? = some 'V' := rfl
    unfold debugVertex at e
    simp at e

theorem items_edge : Items debugEdge fun _ => True where
  split _ _ _ _ _ _ _ _ e := by
    obtain ⟨h1, h2⟩ := debugEdge_split e
    exact ⟨h1, List.cons.inj h2⟩
  head a _ _ _ e := by
    unfold debugEdge at e
    simp at e

theorem items_nat : Items GcCycle.showNat fun n => n < 2 ^ 64 where
  split ha hb _ _ _ _ hx hy e := showNat_split ha hb (not_digit hx) (not_digit hy) e
  head a ha r s e := by
    have hn := (decimal_showNat ha).1
    obtain ⟨c, cs, hc⟩ := List.exists_cons_of_ne_nil hn.ne_nil
    have := hn.ascii c (by rw [hc]; simp)
    rw [hc, List.cons_append, List.cons.injEq] at e
    rw [e.1] at this
    exact absurd this (by decide)

theorem items_int : Items showInt fun i => i.natAbs ≤ 2 ^ 63 where
  split ha hb _ _ _ _ hx hy e := showInt_split ha hb (not_digit hx) (not_digit hy) e
  head a ha r s e := by
    have hn := (decimal_showFuel (n := a.natAbs) (by omega)).1
    unfold showInt at e
    split at e
    · simp at e
    · obtain ⟨c, cs, hc⟩ := List.exists_cons_of_ne_nil hn.ne_nil
      have := hn.ascii c (by rw [hc]; simp)
      rw [hc, List.cons_append, List.cons.injEq] at e
      rw [e.1] at this
      exact absurd this (by decide)

/-- A text without newline. -/
def OneLine (t : Text) : Prop := ∀ c ∈ t, c ≠ '\n'

theorem oneLine_of_ascii {t : Text} (h : ∀ c ∈ t, isAsciiDigit c = true) : OneLine t := fun c hc e => by
  have := h c hc
  rw [e] at this
  exact absurd this (by decide)

theorem lines_injective {f : α → Text} (hf : ∀ a b, f a = f b → a = b) (ho : ∀ a, OneLine (f a)) {l m : List α}
    (h : (l.flatMap fun a => f a ++ ['\n']) = m.flatMap fun a => f a ++ ['\n']) : l = m := by
  induction l generalizing m with
  | nil => cases m with
    | nil => rfl
    | cons b m => simp at h
  | cons a l ih => cases m with
    | nil => simp at h
    | cons b m =>
      simp only [List.flatMap_cons, List.append_assoc, List.cons_append, List.nil_append] at h
      have key : ∀ {A B r s : Text}, OneLine A → OneLine B → A ++ '\n' :: r = B ++ '\n' :: s → A = B ∧ r = s := by
        intro A
        induction A with
        | nil =>
          intro B r s _ hB e
          cases B with
          | nil => exact ⟨rfl, (List.cons.inj e).2⟩
          | cons c B => exact absurd (List.cons.inj e).1.symm (hB c (by simp))
        | cons d A ih =>
          intro B r s hA hB e
          cases B with
          | nil => exact absurd (List.cons.inj e).1 (hA d (by simp))
          | cons c B =>
            obtain ⟨e1, e2⟩ := List.cons.inj e
            obtain ⟨e3, e4⟩ := ih (fun x hx => hA x (by simp [hx])) (fun x hx => hB x (by simp [hx])) e2
            exact ⟨by rw [e1, e3], e4⟩
      obtain ⟨h1, h2⟩ := key (ho a) (ho b) h
      rw [hf a b h1, ih h2]

end Main
end GC
