/-
Specification notions for the stored graph.
-/
import Verif.Model.Store
import Verif.Spec.Format
import Verif.Spec.Graph
import Verif.Spec.Args
namespace GC
namespace Store
open Text

/-- A tree of directories: the root is a directory, and every entry is in a directory. -/
def FS.WF (fs : FS) : Prop := fs [] = some .dir ∧ ∀ p x, fs (p ++ [x]) ≠ none → fs p = some .dir

/-- There is a regular file at `p`. -/
def FileAt (fs : FS) (p : FPath) : Prop := ∃ c, fs p = some (.file c)

/-- The directory `d` exists or can be created: no regular file is in the way. -/
def DirPossible (fs : FS) (d : FPath) : Prop := ∀ q, q <+: d → ¬ FileAt fs q

/-- The lock file can be created (or exists): its directory can exist, and it is not itself a directory. -/
def Lockable (root : FPath) (fs : FS) : Prop := DirPossible fs root ∧ fs (lockPath root) ≠ some .dir

/-- `fs1` is `fs` after the lock was taken: the lock file and the directories up to `root` exist, the rest is unchanged. -/
def LockedFrom (root : FPath) (fs fs1 : FS) : Prop :=
  FileAt fs1 (lockPath root) ∧ (∀ q, q <+: root → fs1 q = some .dir) ∧
  ∀ q, q ≠ lockPath root → ¬ q <+: root → fs1 q = fs q

/-- A directory with an initialised graph, in which every command can run: directories `root` and `.graph`, a command file, and
no directory called `lock`. -/
def Ready (root : FPath) (fs : FS) : Prop :=
  (∀ q, q <+: rootPath root → fs q = some .dir) ∧ FileAt fs (commandPath root) ∧ fs (lockPath root) ≠ some .dir

/-- Content of the command file. -/
def Content (root : FPath) (fs : FS) (c : Text) : Prop := fs (commandPath root) = some (.file c)

/-- An iteration order of the hash map: the entries are the same. -/
def IsOrder (order : DirectedGraph → DirectedGraph) : Prop := ∀ g : DirectedGraph, g.edgeMap.Perm (order g).edgeMap

/-- The state of the file system when gc-build dies while rewriting the command file with `text`: untouched, or any part of the new text
is there. -/
def RewriteInterrupted (root : FPath) (text : Text) (fs fs' : FS) : Prop :=
  fs' = fs ∨ ∃ p, p <+: text ∧ fs' = fs.set (commandPath root) (some (.file p))

/-- The option was given, with these ids. -/
def Given (o : Option (List Text)) (vs : List VertexId) : Prop := ∃ l, o = some l ∧ ArgIds l vs

/-- The edges described by the options `edge`, `chain`, `cycle` and `star` of gc-add, not reversed. -/
inductive ShapeEdge (a : AddArgs) (x y : VertexId) : Prop where
  | edge {vs k} : Given a.edge vs → vs[2 * k]? = some x → vs[2 * k + 1]? = some y → ShapeEdge a x y
  | chain {vs i} : Given a.chain vs → vs[i]? = some x → vs[i + 1]? = some y → ShapeEdge a x y
  | cycle {vs i} : Given a.cycle vs → i < vs.length → vs[i]? = some x → vs[(i + 1) % vs.length]? = some y → ShapeEdge a x y
  | star {vs i} : Given a.star vs → vs[0]? = some x → vs[i + 1]? = some y → ShapeEdge a x y

/-- The edges gc-add is asked to add. -/
def RequestsEdge (a : AddArgs) (x y : VertexId) : Prop :=
  (a.reverse = false ∧ ShapeEdge a x y) ∨ (a.reverse = true ∧ ShapeEdge a y x) ∨
  ∃ vs, Given a.clique vs ∧ ∃ i j : Nat, i ≠ j ∧ vs[i]? = some x ∧ vs[j]? = some y

/-- The arguments of gc-add are valid: all values are ids, `edge` has an even number of them, `chain` and `cycle` at least one. -/
def ValidAdd (a : AddArgs) : Prop :=
  (∀ l, a.vertex = some l → ∃ vs, ArgIds l vs) ∧ (∀ l, a.edge = some l → ∃ vs, ArgIds l vs ∧ vs.length % 2 = 0) ∧
  (∀ l, a.chain = some l → ∃ vs, ArgIds l vs ∧ vs ≠ []) ∧ (∀ l, a.cycle = some l → ∃ vs, ArgIds l vs ∧ vs ≠ []) ∧
  (∀ l, a.star = some l → ∃ vs, ArgIds l vs) ∧ (∀ l, a.clique = some l → ∃ vs, ArgIds l vs)

end Store
end GC
