/- The tests of core/src/constraint/checker.rs (196-293); the messages are compared as texts. -/
import Verif.Tests.Common
import Verif.Model.Messages
namespace GC.Tests
open Constraint Checker

/-- The result of a check, with the text of the message. -/
def messageOf (r : Except ValidateError Unit) : Except Text Unit :=
  match r with
  | .ok () => .ok ()
  | .error e => .error e.message

/-- `check_vertex_inclusion_exclusion_should_accept_when_vertices_inclusion_and_exclusion_are_compatible` -/
example : messageOf (checkVertexInclusionExclusion
    [ContainsVertex 4, ContainsVertex 5, ContainsVertex 6, ContainsEdge (edge 5 4), .Not (ContainsVertex 3)]) = .ok () := by
  decide +kernel

/-- `check_vertex_inclusion_exclusion_should_reject_when_a_vertex_is_included_and_excluded_at_the_same_time_1` -/
example : messageOf (checkVertexInclusionExclusion [ContainsVertex 3, .Not (ContainsVertex 3)]) = .error
    "Incompatible set of constraints leading to vertices [VertexId(3)] to be included and excluded at the same time.".toList := by
  decide +kernel

/-- `check_min_max_length_should_accept_compatible_min_and_max_length_constraint` -/
example : messageOf (checkMinMaxLength [MaxLength 6, MinLength 5]) = .ok () := by decide +kernel

/-- `check_min_max_length_should_reject_incompatible_min_length_constraint` -/
example : messageOf (checkMinMaxLength [MinLength 5, MinLength 6]) = .error
    "Incompatible set of MinLength constraints: [5, 6] were defined, having only one is possible".toList := by decide +kernel

/-- `check_min_max_length_should_reject_incompatible_max_length_constraint` -/
example : messageOf (checkMinMaxLength [MaxLength 5, MaxLength 6]) = .error
    "Incompatible set of MaxLength constraints: [5, 6] were defined, having only one is possible".toList := by decide +kernel

/-- `check_min_max_length_should_reject_incompatible_min_and_max_length_constraint` -/
example : messageOf (checkMinMaxLength [MaxLength 5, MinLength 6]) = .error
    "Incompatible set of min/max length constraints: min=6, max=5".toList := by decide +kernel

/-- `check_min_max_length_should_accept_compatible_min_and_max_score_constraint` -/
example : messageOf (checkMinMaxScore [MaxScore 6, MinScore 5]) = .ok () := by decide +kernel

/-- `check_min_max_length_should_reject_incompatible_min_score_constraint` -/
example : messageOf (checkMinMaxScore [MinScore 5, MinScore 6]) = .error
    "Incompatible set of MinScore constraints: [5, 6] were defined, having only one is possible".toList := by decide +kernel

/-- `check_min_max_length_should_reject_incompatible_max_score_constraint` -/
example : messageOf (checkMinMaxScore [MaxScore 5, MaxScore 6]) = .error
    "Incompatible set of MaxScore constraints: [5, 6] were defined, having only one is possible".toList := by decide +kernel

/-- `check_min_max_length_should_reject_incompatible_min_and_max_score_constraint` -/
example : messageOf (checkMinMaxScore [MaxScore 5, MinScore 6]) = .error
    "Incompatible set of min/max score constraints: min=6, max=5".toList := by decide +kernel

end GC.Tests
