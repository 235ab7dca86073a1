/- The tests of core/src/constraint/constraint.rs (115-519). -/
import Verif.Tests.Common
import Verif.Model.Constraint
namespace GC.Tests
open Constraint

/-- `partial_contains_vertex_should_always_be_true` -/
example : let path := scoreOf (pathOf [1, 2]) 1
    (ContainsVertex 3).checkPartial path = true := by decide +kernel

/-- `partial_contains_edge_should_always_be_true` -/
example : let path := scoreOf (pathOf [1, 2]) 1
    (ContainsEdge (edge 1 3)).checkPartial path = true := by decide +kernel

/-- `partial_ordered_vertices_should_detect_invalid_path` -/
example : let path := scoreOf (pathOf [1, 2]) 1
    (OrderedVertices [2, 5, 1]).checkPartial path = false := by decide +kernel

/-- `partial_ordered_vertices_should_allow_correct_partial_path` -/
example : let path := scoreOf (pathOf [1, 2]) 1
    (OrderedVertices [1, 5, 2, 7]).checkPartial path = true := by decide +kernel

/-- `contains_cycle_should_always_be_true_on_partial_path` -/
example : let path := scoreOf (pathOf [1, 2, 3, 4, 5]) 1
    ContainsCycle.checkPartial path = true := by decide +kernel

/-- `contains_cycle_should_be_true_on_partial_path_with_an_actual_cycle` -/
example : let path := scoreOf (pathOf [1, 2, 3, 4, 5, 2, 7, 8]) 1
    ContainsCycle.checkPartial path = true := by decide +kernel

/-- `partial_min_length_should_allow_any_path` -/
example : let path := scoreOf (pathOf [1, 2, 3, 4]) 1
    path.path.size = 4 ∧
    (MinLength 2).checkPartial path = true ∧
    (MinLength 5).checkPartial path = true := by decide +kernel

/-- `partial_max_length_should_allow_a_shorter_path` -/
example : let path := scoreOf (pathOf [1, 2]) 1
    path.path.size = 2 ∧
    (MaxLength 3).checkPartial path = true := by decide +kernel

/-- `partial_max_score_should_reject_a_too_long_path` -/
example : let path := scoreOf (pathOf [1, 2, 3, 4]) 1
    path.path.size = 4 ∧
    (MaxLength 3).checkPartial path = false := by decide +kernel

/-- `partial_min_score_should_allow_any_path` -/
example : let path := scoreOf (pathOf [1, 2]) 10
    (MinScore 12).checkPartial path = true ∧
    (MinScore 5).checkPartial path = true := by decide +kernel

/-- `partial_max_length_should_allow_a_smaller_score` -/
example : let path := scoreOf (pathOf [1, 2]) 10
    (MaxScore 12).checkPartial path = true := by decide +kernel

/-- `partial_max_score_should_reject_a_too_high_score` -/
example : let path := scoreOf (pathOf [1, 2]) 25
    (MaxScore 12).checkPartial path = false := by decide +kernel

/-- `partial_or_should_be_true_if_any_of_the_constraints_can_still_be_met` -/
example : let path := scoreOf (pathOf [1, 2]) 1
    (Or (MaxScore 12) (MaxScore 15)).checkPartial path = true := by decide +kernel

/-- `partial_or_should_be_false_if_none_of_the_constraints_can_be_met` -/
example : let path := scoreOf (pathOf [1, 2]) 20
    (Or (MaxScore 12) (MaxScore 15)).checkPartial path = false := by decide +kernel

/-- `partial_and_should_be_true_if_both_constraints_can_still_be_met` -/
example : let path := scoreOf (pathOf [1, 2]) 1
    (And (MaxScore 12) (MaxScore 15)).checkPartial path = true := by decide +kernel

/-- `partial_and_should_be_false_if_any_of_the_constraint_cannot_be_met` -/
example : let path := scoreOf (pathOf [1, 2]) 13
    (And (MaxScore 12) (MaxScore 15)).checkPartial path = false := by decide +kernel

/-- `partial_xor_should_be_true_if_both_constraints_can_still_be_met` -/
example : let path := scoreOf (pathOf [1, 2]) 1
    (Xor (MaxScore 12) (MaxScore 15)).checkPartial path = true := by decide +kernel

/-- `partial_xor_should_be_true_if_one_of_the_constraints_can_still_be_met` -/
example : let path := scoreOf (pathOf [1, 2]) 13
    (Xor (MaxScore 12) (MaxScore 15)).checkPartial path = true := by decide +kernel

/-- `partial_xor_should_be_false_if_both_the_constraints_cannot_be_met` -/
example : let path := scoreOf (pathOf [1, 2]) 16
    (Xor (MaxScore 12) (MaxScore 15)).checkPartial path = false := by decide +kernel

/-- `partial_not_should_always_be_true` -/
example : let path := scoreOf (pathOf [1, 2]) 6
    (Not (MaxScore 4)).checkPartial path = true ∧
    (Not (MaxScore 6)).checkPartial path = true ∧
    (Not (MaxScore 12)).checkPartial path = true := by decide +kernel

/-- `complete_contains_vertex_should_ensure_path_has_a_given_vertex` -/
example : let path := scoreOf (pathOf [1, 2]) 1
    (ContainsVertex 1).checkComplete path = true ∧
    (ContainsVertex 2).checkComplete path = true ∧
    (ContainsVertex 3).checkComplete path = false := by decide +kernel

/-- `complete_contains_edge_should_ensure_path_has_a_given_edge` -/
example : let path := scoreOf (pathOf [1, 2]) 1
    (ContainsEdge (edge 1 2)).checkComplete path = true ∧
    (ContainsEdge (edge 1 3)).checkComplete path = false ∧
    (ContainsEdge (edge 2 3)).checkComplete path = false := by decide +kernel

/-- `complete_ordered_vertices_should_detect_invalid_path` -/
example : let path := scoreOf (pathOf [1, 2]) 1
    (OrderedVertices [2, 5, 1]).checkComplete path = false := by decide +kernel

/-- `contains_cycle_should_be_false_on_complete_path_without_cycle` -/
example : let path := scoreOf (pathOf [1, 2, 3, 4, 5]) 1
    ContainsCycle.checkComplete path = false := by decide +kernel

/-- `contains_cycle_should_be_true_on_complete_path_with_one_cycle` -/
example : let path := scoreOf (pathOf [1, 2, 3, 4, 5, 2, 7, 8]) 1
    ContainsCycle.checkComplete path = true := by decide +kernel

/-- `contains_cycle_should_be_true_on_complete_path_with_more_than_one_cycle` -/
example : let path := scoreOf (pathOf [1, 2, 3, 4, 5, 2, 7, 8, 3, 9, 10, 5, 11]) 1
    ContainsCycle.checkComplete path = true := by decide +kernel

/-- `complete_min_length_should_allow_only_path_with_a_minimum_length` -/
example : let path := scoreOf (pathOf [1, 2, 3, 4]) 1
    path.path.size = 4 ∧
    (MinLength 2).checkComplete path = true ∧
    (MinLength 4).checkComplete path = true ∧
    (MinLength 5).checkComplete path = false := by decide +kernel

/-- `complete_max_length_should_allow_only_path_up_to_max_length` -/
example : let path := scoreOf (pathOf [1, 2, 3, 4]) 1
    path.path.size = 4 ∧
    (MaxLength 2).checkComplete path = false ∧
    (MaxLength 4).checkComplete path = true ∧
    (MaxLength 5).checkComplete path = true := by decide +kernel

/-- `complete_min_score_should_allow_only_path_with_a_minimum_score` -/
example : let path := scoreOf (pathOf [1, 2]) 4
    (MinScore 2).checkComplete path = true ∧
    (MinScore 4).checkComplete path = true ∧
    (MinScore 5).checkComplete path = false := by decide +kernel

/-- `complete_max_score_should_allow_only_path_up_to_max_score` -/
example : let path := scoreOf (pathOf [1, 2]) 4
    (MaxScore 2).checkComplete path = false ∧
    (MaxScore 4).checkComplete path = true ∧
    (MaxScore 5).checkComplete path = true := by decide +kernel

/-- `complete_or_should_be_true_if_any_of_the_constraints_is_met` -/
example : let path := scoreOf (pathOf [1, 2]) 13
    (Or (MaxScore 12) (MaxScore 15)).checkComplete path = true ∧
    (Or (MaxScore 15) (MaxScore 12)).checkComplete path = true := by decide +kernel

/-- `complete_or_should_be_false_if_none_of_the_constraints_can_be_met` -/
example : let path := scoreOf (pathOf [1, 2]) 20
    (Or (MaxScore 12) (MaxScore 15)).checkComplete path = false ∧
    (Or (MaxScore 15) (MaxScore 12)).checkComplete path = false := by decide +kernel

/-- `complete_and_should_be_true_if_both_constraints_are_met` -/
example : let path := scoreOf (pathOf [1, 2]) 11
    (And (MaxScore 12) (MaxScore 15)).checkComplete path = true := by decide +kernel

/-- `complete_and_should_be_false_if_at_least_one_constraint_is_not_met` -/
example : let path := scoreOf (pathOf [1, 2]) 13
    (And (MaxScore 12) (MaxScore 15)).checkComplete path = false := by decide +kernel

/-- `complete_xor_should_be_true_if_only_one_out_of_two_constraint_is_met` -/
example : let path := scoreOf (pathOf [1, 2]) 13
    (Xor (MaxScore 12) (MaxScore 15)).checkComplete path = true := by decide +kernel

/-- `partial_xor_should_be_false_if_both_the_constraints_are_met_or_not_met` -/
example : let path := scoreOf (pathOf [1, 2]) 16
    (Xor (MaxScore 12) (MaxScore 15)).checkComplete path = false ∧
    (Xor (MaxScore 20) (MaxScore 25)).checkComplete path = false := by decide +kernel

/-- `complete_not_should_true_when_wrapped_constraint_is_false` -/
example : let path := scoreOf (pathOf [1, 2]) 6
    (Not (MaxScore 4)).checkComplete path = true ∧
    (Not (MaxScore 6)).checkComplete path = false ∧
    (Not (MaxScore 12)).checkComplete path = false := by decide +kernel

/-- `complete_not_should_false_when_wrapped_constraint_is_true` -/
example : let path := scoreOf (pathOf [1, 2]) 6
    (Not (MaxScore 6)).checkComplete path = false ∧
    (Not (MaxScore 12)).checkComplete path = false := by decide +kernel

end GC.Tests
