/- Specification: ways to write the same constraints. -/
import Verif.Model.Constraint
namespace GC

/-- Two ways to write the same combination by `Or`, `And` and `Xor`, by the laws of logic. Nothing is changed below a `Not`. -/
inductive Rewrites : Constraint → Constraint → Prop where
  | refl (a) : Rewrites a a
  | symm {a b} : Rewrites a b → Rewrites b a
  | trans {a b c} : Rewrites a b → Rewrites b c → Rewrites a c
  | or {a a' b b'} : Rewrites a a' → Rewrites b b' → Rewrites (.Or a b) (.Or a' b')
  | and {a a' b b'} : Rewrites a a' → Rewrites b b' → Rewrites (.And a b) (.And a' b')
  | xor {a a' b b'} : Rewrites a a' → Rewrites b b' → Rewrites (.Xor a b) (.Xor a' b')
  | or_comm (a b) : Rewrites (.Or a b) (.Or b a)
  | and_comm (a b) : Rewrites (.And a b) (.And b a)
  | xor_comm (a b) : Rewrites (.Xor a b) (.Xor b a)
  | or_assoc (a b c) : Rewrites (.Or (.Or a b) c) (.Or a (.Or b c))
  | and_assoc (a b c) : Rewrites (.And (.And a b) c) (.And a (.And b c))
  | xor_assoc (a b c) : Rewrites (.Xor (.Xor a b) c) (.Xor a (.Xor b c))
  | or_same (a) : Rewrites (.Or a a) a
  | and_same (a) : Rewrites (.And a a) a
  | and_or (a b c) : Rewrites (.And a (.Or b c)) (.Or (.And a b) (.And a c))
  | or_and (a b c) : Rewrites (.Or a (.And b c)) (.And (.Or a b) (.Or a c))
  | and_xor (a b c) : Rewrites (.And a (.Xor b c)) (.Xor (.And a b) (.And a c))

/-- Two ways to write the same list of constraints: in another order or with repetitions, with `And` instead of two constraints, and with each
constraint written in another way. -/
inductive RewritesAll : List Constraint → List Constraint → Prop where
  | same {cs cs' : List Constraint} : (∀ c, c ∈ cs ↔ c ∈ cs') → RewritesAll cs cs'
  | symm {cs cs'} : RewritesAll cs cs' → RewritesAll cs' cs
  | trans {cs cs' cs''} : RewritesAll cs cs' → RewritesAll cs' cs'' → RewritesAll cs cs''
  | split (a b cs) : RewritesAll (.And a b :: cs) (a :: b :: cs)
  | head {a b} (cs) : Rewrites a b → RewritesAll (a :: cs) (b :: cs)

end GC
