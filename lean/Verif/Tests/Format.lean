/- The tests of core/src/format/tgf.rs (70-110) and core/src/format/gcmd.rs (115-190). They contain no digits other than ASCII digits: which
other characters are digits (`nd`) does not matter. -/
import Verif.Tests.Common
import Verif.Model.Messages
namespace GC.Tests
open Format

/-- The result of `parse_line`, with the text of the message. -/
def parsed (r : Run (Except Text GraphCommand)) : Run (Except Text GraphCommand) :=
  r.bind fun r =>
    match r with
    | .ok c => .done (.ok c)
    | .error line => .done (.error (parseMessage line))

/-! core/src/format/tgf.rs -/

/-- `parse_vertex_line_with_label_should_work` -/
example : parsed (Tgf.parseLine (fun _ => false) "123456 This label will be ignored".toList) = .done (.ok (.AddVertex 123456)) := by
  decide +kernel

/-- `parse_edge_line_with_label_should_work` -/
example : parsed (Tgf.parseLine (fun _ => false) "123456 784695 This label will be ignored".toList) =
    .done (.ok (.AddEdge 123456 784695)) := by decide +kernel

/-- `parse_vertex_line_without_label_should_work` -/
example : parsed (Tgf.parseLine (fun _ => false) "123456".toList) = .done (.ok (.AddVertex 123456)) := by decide +kernel

/-- `parse_edge_line_without_label_should_work` (the line has a label) -/
example : parsed (Tgf.parseLine (fun _ => false) "123456 784695 This label will be ignored".toList) =
    .done (.ok (.AddEdge 123456 784695)) := by decide +kernel

/-- `parse_ill_formatted_line_should_fail` -/
example : parsed (Tgf.parseLine (fun _ => false) "a123456 784695 Label".toList) =
    .done (.error "Couldn't parse 'a123456 784695 Label'".toList) := by decide +kernel

/-! core/src/format/gcmd.rs -/

/-- `parse_add_vertex_line_should_work` -/
example : parsed (Gcmd.parseLine (fun _ => false) "AddVertex 123456".toList) = .done (.ok (.AddVertex 123456)) := by decide +kernel

/-- `parse_add_edge_line_should_work` -/
example : parsed (Gcmd.parseLine (fun _ => false) "AddEdge 123456 784695".toList) = .done (.ok (.AddEdge 123456 784695)) := by
  decide +kernel

/-- `parse_remove_vertex_line_should_work` -/
example : parsed (Gcmd.parseLine (fun _ => false) "RemoveVertex 123456".toList) = .done (.ok (.RemoveVertex 123456)) := by decide +kernel

/-- `parse_remove_edge_line_should_work` -/
example : parsed (Gcmd.parseLine (fun _ => false) "RemoveEdge 123456 784695".toList) = .done (.ok (.RemoveEdge 123456 784695)) := by
  decide +kernel

/-- `parse_ill_formatted_line_should_fail` -/
example : parsed (Gcmd.parseLine (fun _ => false) "AddEdge a123456 784695".toList) =
    .done (.error "Couldn't parse 'AddEdge a123456 784695'".toList) := by decide +kernel

/-- `command_into_line_translate_add_vertex` -/
example : Gcmd.commandIntoLine (.AddVertex 123456) = "AddVertex 123456".toList := by decide +kernel

/-- `command_into_line_translate_remove_vertex` -/
example : Gcmd.commandIntoLine (.RemoveVertex 123456) = "RemoveVertex 123456".toList := by decide +kernel

/-- `command_into_line_translate_add_edge` -/
example : Gcmd.commandIntoLine (.AddEdge 123456 784695) = "AddEdge 123456 784695".toList := by decide +kernel

/-- `command_into_line_translate_remove_edge` -/
example : Gcmd.commandIntoLine (.RemoveEdge 123456 784695) = "RemoveEdge 123456 784695".toList := by decide +kernel

end GC.Tests
