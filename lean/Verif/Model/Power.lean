/-
What a power failure leaves of a session.
-/
import Verif.Model.Crash
namespace GC
namespace Store

/-- No function of the code waits until the disk has what it wrote (core/src/format/gcmd.rs 79-103 and command/src/graph_utils.rs 135-168 make no
call of `sync_all` or `sync_data`), so the end of a session may be lost although its commands have ended: some first commands are on the disk,
perhaps a part of the next one as if it had been killed, and nothing of the rest. This is not a function of the code; it is simplified to file
systems that bring changes to the disk in the order in which they were made, the size of a file not before its content. -/
def PowerLoss (nd : Char → Bool) (root : FPath) (cmds : List Cmd) (fs fs' : FS) : Prop :=
  ∃ before lost, cmds = before ++ lost ∧
    (fs' = (session nd root before fs).1 ∨ ∃ cmd rest, lost = cmd :: rest ∧ Killed nd root cmd (session nd root before fs).1 fs')

/-- The same for file systems that bring the changes of different files and directories to the disk in any order: of each path the disk has what
was there at some moment of the session, and the moments may differ. Not a function of /repo; the writes are those of core/src/format/gcmd.rs
79-103 and command/src/graph_utils.rs 135-168. -/
def PowerLossEach (nd : Char → Bool) (root : FPath) (cmds : List Cmd) (fs fs' : FS) : Prop :=
  ∀ q, ∃ fs1, PowerLoss nd root cmds fs fs1 ∧ fs' q = fs1 q

end Store
end GC
