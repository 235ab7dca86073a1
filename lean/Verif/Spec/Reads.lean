/- Specification of what a sequence of `read` calls hands out. -/
import Verif.Model.Reads
namespace GC
open Reads

/-- The bytes that are handed out before the first failing call. -/
def delivered : List Event → List UInt8
  | [] => []
  | .data b bs :: es => b :: bs ++ delivered es
  | .interrupted :: es => delivered es
  | .failed :: _ => []

/-- Some call fails. -/
def HasFailure (es : List Event) : Prop := Event.failed ∈ es

/-- The program ends like this computation: with the same result, or with a panic as well. -/
def EndsLike {α : Type} (p : Prog α) (r : Run α) : Prop :=
  match r with
  | .done a => Returns p a
  | .panicked => Panics p
  | .running => False

end GC
