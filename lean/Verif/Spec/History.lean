/-
What a session of commands does to the stored graph, in terms of sets of vertices and edges.
-/
import Verif.Model.History
import Verif.Spec.Store
namespace GC
namespace Store
open Text

/-- The first `n` of the options vertex, edge, chain, cycle, star, clique of gc-add. -/
def AddArgs.first (a : AddArgs) (n : Nat) : AddArgs where
  vertex := if 1 ≤ n then a.vertex else none
  reverse := a.reverse
  edge := if 2 ≤ n then a.edge else none
  chain := if 3 ≤ n then a.chain else none
  cycle := if 4 ≤ n then a.cycle else none
  star := if 5 ≤ n then a.star else none
  clique := if 6 ≤ n then a.clique else none

/-- `n` options are carried out: all of them, or those before the first invalid one. -/
def AddArgs.CarriedOut (a : AddArgs) (n : Nat) : Prop :=
  ValidAdd (a.first n) ∧ (n = 6 ∨ n < 6 ∧ ¬ ValidAdd (a.first (n + 1)))

/-- The values of the option `vertex` of gc-delete are ids. -/
def ValidIds (o : Option (List Text)) : Prop := ∀ l, o = some l → ∃ vs, ArgIds l vs
/-- The values of the option `edge` of gc-delete are an even number of ids. -/
def ValidPairs (o : Option (List Text)) : Prop := ∀ l, o = some l → ∃ vs, ArgIds l vs ∧ vs.length % 2 = 0

/-- The answer given at a prompt is yes: `yes` or `y`, surrounded by white space. -/
def SaysYes (answer : Text) : Prop :=
  ∃ w1 w2, (∀ c ∈ w1, White c) ∧ (∀ c ∈ w2, White c) ∧ (answer = w1 ++ ['y', 'e', 's'] ++ w2 ∨ answer = w1 ++ ['y'] ++ w2)

end Store

namespace SetGraph
open Store

/-- The graph with the vertices and edges requested by the options of gc-add. -/
def added (G : SetGraph) (a : AddArgs) : SetGraph where
  V v := G.V v ∨ (∃ vs, Given a.vertex vs ∧ v ∈ vs) ∨ ∃ w, RequestsEdge a v w ∨ RequestsEdge a w v
  E e := G.E e ∨ RequestsEdge a e.src e.dst

/-- The graph without the given vertices and their edges. -/
def withoutVertices (G : SetGraph) (vs : List VertexId) : SetGraph where
  V v := G.V v ∧ v ∉ vs
  E e := G.E e ∧ e.src ∉ vs ∧ e.dst ∉ vs

/-- The graph without the edges between the ids at the even positions and their successors. -/
def withoutPairs (G : SetGraph) (vs : List VertexId) : SetGraph where
  V := G.V
  E e := G.E e ∧ ∀ k, ¬ (vs[2 * k]? = some e.src ∧ vs[2 * k + 1]? = some e.dst)

end SetGraph

namespace Store

/-- One command: what it makes of the stored graph (`none`: there is none), and how it ends. -/
inductive Effect : Cmd → Option SetGraph → Option SetGraph → Exit → Prop where
  | init_new : Effect .init none (some .empty) .success
  | init_again {G} : Effect .init (some G) (some G) .success
  | add {a n G} : a.CarriedOut n → n = 6 → Effect (.add a) (some G) (some (G.added a)) .success
  | add_fails {a n G} : a.CarriedOut n → n < 6 → Effect (.add a) (some G) (some (G.added (a.first n))) .panic
  | add_lost {a} : ValidAdd a → Effect (.add a) none none .success
  | add_lost_fails {a} : ¬ ValidAdd a → Effect (.add a) none none .panic
  | delete {vertex edge vs es G} : (vertex = none ∧ vs = [] ∨ Given vertex vs) → (edge = none ∧ es = [] ∨ Given edge es) → es.length % 2 = 0 →
      Effect (.delete vertex edge) (some G) (some ((G.withoutVertices vs).withoutPairs es)) .success
  | delete_fails {vertex edge G} : ¬ ValidIds vertex → Effect (.delete vertex edge) (some G) (some G) .panic
  | delete_fails_edges {vertex edge vs G} : (vertex = none ∧ vs = [] ∨ Given vertex vs) → ¬ ValidPairs edge →
      Effect (.delete vertex edge) (some G) (some (G.withoutVertices vs)) .panic
  | delete_lost {vertex edge} : ValidIds vertex → ValidPairs edge → Effect (.delete vertex edge) none none .success
  | delete_lost_fails {vertex edge} : ¬ (ValidIds vertex ∧ ValidPairs edge) → Effect (.delete vertex edge) none none .panic
  | build {order G} : Effect (.build order) (some G) (some G) .success
  | build_fails {order} : Effect (.build order) none none .panic
  | clean {force answer G} : force = true ∨ SaysYes answer → Effect (.clean force answer) (some G) none .success
  | clean_fails {force answer} : force = true ∨ SaysYes answer → Effect (.clean force answer) none none .panic
  | clean_refused {answer S} : ¬ SaysYes answer → Effect (.clean false answer) S S .success
  | random {g order force answer G} : force = true ∨ SaysYes answer → Effect (.random g order force answer) (some G) (some g.toSet) .success
  | random_fails {g order force answer} : force = true ∨ SaysYes answer → Effect (.random g order force answer) none none .panic
  | random_refused {g order answer S} : ¬ SaysYes answer → Effect (.random g order false answer) S S .success

/-- Effects of a sequence of commands. -/
inductive History : List Cmd → Option SetGraph → Option SetGraph → List Exit → Prop where
  | nil {S} : History [] S S []
  | cons {cmd cmds S S' S'' e es} : Effect cmd S S' e → History cmds S' S'' es → History (cmd :: cmds) S S'' (e :: es)

/-- What is stored: a graph with these vertices and edges is loaded, or there is no graph. -/
def Stored (nd : Char → Bool) (root : FPath) (fs : FS) : Option SetGraph → Prop
  | some G => ∃ g, loadGraph nd root fs = .done (.ok g) ∧ g.toSet = G
  | none => loadGraph nd root fs = .done (.error (.io .notFound))

/-- A directory (perhaps still to be created) in which the commands can work and in which there is no graph yet: no regular file is in the
way of the directory, there is nothing called `.graph` and no directory called `lock` in it. -/
def Fresh (root : FPath) (fs : FS) : Prop :=
  DirPossible fs root ∧ (∀ q, rootPath root <+: q → fs q = none) ∧ fs (lockPath root) ≠ some .dir

/-- A directory in which the commands can work, holding this graph (or none): the command file is readable and its last line is complete. -/
def Holds (nd : Char → Bool) (root : FPath) (fs : FS) : Option SetGraph → Prop
  | some G => Ready root fs ∧ ∃ c g, Content root fs c ∧ NewlineTerminated c ∧ Format.Gcmd.read nd c = .done (.ok g) ∧ g.toSet = G
  | none => Fresh root fs

/-- Nothing outside `.graph` changed, except that missing directories up to `root` may have been created, and that a lock file is gone. -/
def Untouched (root : FPath) (fs fs' : FS) : Prop :=
  (∀ q, q ≠ lockPath root → ¬ rootPath root <+: q → fs' q = fs q ∨ (q <+: root ∧ fs q = none ∧ fs' q = some .dir)) ∧
  (fs' (lockPath root) = fs (lockPath root) ∨ fs' (lockPath root) = none)

/-- gc-init, gc-add and gc-delete. -/
def Cmd.OnlyAppends : Cmd → Prop
  | .init | .add _ | .delete _ _ => True
  | _ => False

/-- All commands but gc-clean and gc-random, which remove the command file. -/
def Cmd.KeepsFile : Cmd → Prop
  | .clean _ _ | .random _ _ _ _ => False
  | _ => True

/-- Nothing outside `.graph` changed, except for the lock file, and except that missing directories up to `root` may have been created. -/
def Elsewhere (root : FPath) (fs fs' : FS) : Prop :=
  ∀ q, q ≠ lockPath root → ¬ rootPath root <+: q → fs' q = fs q ∨ (q <+: root ∧ fs q = none ∧ fs' q = some .dir)

/-- The iteration orders are orders of the entries, and generated graphs are graphs. -/
def Cmd.Proper : Cmd → Prop
  | .build order => IsOrder order
  | .random g order _ _ => Built g ∧ IsOrder order
  | _ => True

end Store
end GC
