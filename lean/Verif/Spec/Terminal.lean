/-
What the commands do, seen from the terminal: the words that are typed, the text that is printed, the exit code, and the graphs that are
stored in directories, as sets of vertices and edges.
-/
import Verif.Model.Terminal
import Verif.Spec.Manual
import Verif.Spec.CycleReport
import Verif.Spec.Announce
import Verif.Spec.History
import Verif.Spec.Frame
import Verif.Spec.Random
namespace GC
namespace Terminal
open Text Store Cli Clap Args Main Manual

/-- A line of output. -/
def line (t : Text) : Text := t ++ ['\n']

/-- The number of edges that is reported: every self-loop counts for a half, rounded down. -/
def ReportedEdges (g : DirectedGraph) (n : Nat) : Prop :=
  ∃ a b : List Edge, a.Nodup ∧ b.Nodup ∧ (∀ e, e ∈ a ↔ g.containsEdge e = true ∧ e.src ≠ e.dst) ∧
    (∀ e, e ∈ b ↔ g.containsEdge e = true ∧ e.src = e.dst) ∧ n = a.length + b.length / 2

/-- The number of vertices. -/
def HasVertices (g : DirectedGraph) (n : Nat) : Prop := ∃ l : List VertexId, l.Nodup ∧ (∀ v, v ∈ l ↔ g.containsVertex v = true) ∧ n = l.length

/-- A smallest (or, with the opposite order, largest) vertex as printed by gc-desc; a hyphen if there is no vertex. -/
def ExtremeText (g : DirectedGraph) (le : UInt64 → UInt64 → Prop) (t : Text) : Prop :=
  (∃ v, g.containsVertex v = true ∧ (∀ w, g.containsVertex w = true → le v.id w.id) ∧ Decimal t v.id.toNat) ∨
  (∀ v, g.containsVertex v = false) ∧ t = ['-']

/-- What gc-desc prints. -/
def DescReport (g : DirectedGraph) (path t : Text) : Prop :=
  ∃ n m v e lo hi, HasVertices g n ∧ ReportedEdges g m ∧ Shown v n ∧ Shown e m ∧ ExtremeText g (· ≤ ·) lo ∧ ExtremeText g (· ≥ ·) hi ∧
    t = line ("Path: ".toList ++ path) ++ line ("Vertices: ".toList ++ v) ++ line ("Edges: ".toList ++ e) ++
      line ("Min vertex id: ".toList ++ lo) ++ line ("Max vertex id: ".toList ++ hi)

/-- What gc-topo-sort prints. -/
inductive TopoReport (g : DirectedGraph) : Text → Prop where
  | order {l ids} : TopologicalOrder g l → PrintedIds ' ' l ids → TopoReport g (line ("Topological order: ".toList ++ ids))
  /-- If a self-loop at a vertex without other outgoing edges is the only cycle, it is not noticed, and the vertex is left out. -/
  | dead_end {u l ids} : OnlyDeadEndLoop g u → l.Nodup → (∀ v, v ∈ l ↔ g.containsVertex v = true ∧ v ≠ u) →
      (∀ a b, Adj g a b → b ≠ u → Before l a b) → PrintedIds ' ' l ids → TopoReport g (line ("Topological order: ".toList ++ ids))
  | circular : ¬ Acyclic g → (∀ u, ¬ OnlyDeadEndLoop g u) → TopoReport g (line "Graph is not a DAG.".toList)

/-- A query about the stored graph (if there is one), the text printed, and the exit code. -/
inductive Answers : Stream.Query → Option SetGraph → Text → Nat → Prop where
  /-- Nothing can be said without a graph. -/
  | no_graph {q} : Answers q none [] 101
  | topoSort {g t} : Built g → TopoReport g t → Answers .topoSort (some g.toSet) t 0
  | desc {g path t} : Built g → DescReport g path t → Answers (.desc path) (some g.toSet) t 0
  | cycle {g act a s lines} : Built g → (∀ v, g.containsVertex v = true → g.containsVertex s = true) → CycleReport g s a act lines →
      Answers (.cycle act a) (some g.toSet) (lines.flatMap line) 0
  | shortPath {g start end_ s e t} : Built g → ArgId start s → ArgId end_ e → ShortPathReport g s e t →
      Answers (.shortPath start end_) (some g.toSet) t 0
  /-- Nothing is claimed for graphs with 2^63 vertices or more. -/
  | shortPath_huge {g start end_ t code} : Built g → (∀ n, HasVertices g n → 2 ^ 63 ≤ n) →
      Answers (.shortPath start end_) (some g.toSet) t code
  | shortPath_invalid {start end_ S} : (∀ v, ¬ ArgId start v) ∨ (∀ v, ¬ ArgId end_ v) → Answers (.shortPath start end_) S [] 101
  /-- The options are repeated in a first part of the text. -/
  | csp {g start end_ s e a first report} : Built g → ArgId start s → ArgId end_ e → Announces a first → CspAnswer g s e a report →
      Answers (.csp start end_ a) (some g.toSet) (first ++ report) 0
  /-- The search can only break down (on walks with 2^63 edges) if there is nothing to find. -/
  | csp_breaks {g start end_ s e a first} : Built g → ArgId start s → ArgId end_ e → Announces a first → (∀ l, ¬ CspSelects g s e a l) →
      Answers (.csp start end_ a) (some g.toSet) first 101
  | csp_invalid {start end_ a S} : (∀ v, ¬ ArgId start v) ∨ (∀ v, ¬ ArgId end_ v) → Answers (.csp start end_ a) S [] 101

/-- The numbers of vertices and edges that gc-random is to generate: without a (valid) number of edges, three times the vertices. -/
def Sizes (vertexCount : Text) (edgeCount : Option Text) (vc ec : Nat) : Prop :=
  ArgNat vertexCount vc ∧ vc * 3 < 2 ^ 64 ∧
  ((∃ t, edgeCount = some t ∧ ArgNat t ec) ∨ (∀ t n, edgeCount = some t → ¬ ArgNat t n) ∧ ec = vc * 3)

/-- The graph that gc-random generates from its random numbers: that of the draws of the first rounds that give as many different edges as
wanted. -/
def Generated (rng : Nat → UInt64) (vc ec : Nat) (G : SetGraph) : Prop :=
  ∃ rounds, Random.GivesIn rng vc (rounds * (vc - 1)) ec ∧ (∀ fewer < rounds, ¬ Random.GivesIn rng vc (fewer * (vc - 1)) ec) ∧
    (∀ e, G.E e ↔ ∃ k < rounds * (vc - 1), Random.Drawn rng vc k e) ∧
    ∀ v, G.V v ↔ ∃ e, G.E e ∧ (v = e.src ∨ v = e.dst)

/-- The prompt, which is left out if `force` is given. -/
def prompt (force : Bool) (question : Text) : Text := if force then [] else line question

/-- The question of gc-clean. -/
def cleanQuestion (path : Text) : Text := "Are you sure you want to clean graph at '".toList ++ path ++ "' ? (yes/no)".toList
/-- The question of gc-random. -/
def randomQuestion (path : Text) : Text := "Creating a random graph will clean existing graph at '".toList ++ path ++ "' ? (yes/no)".toList
/-- What gc-clean says before it starts. -/
def cleanStart (path : Text) : Text := "Cleaning graph under '".toList ++ path ++ "' ...".toList
/-- Text that is left out if `silent` is given. -/
def aloud (silent : Bool) (t : Text) : Text := if silent then [] else t

/-- The exit code of a command. -/
def returned : Exit → Nat
  | .success => 0
  | .panic => 101

/-- An invocation: the stored graph before and after, the text printed, and the exit code. -/
inductive Obeys (c : Circumstances) : Invocation → Option SetGraph → Option SetGraph → Text → Nat → Prop where
  | init {path S S' e} : Effect .init S S' e → Obeys c (.init path) S S' [] (returned e)
  | add {path a S S' e} : Effect (.add a) S S' e → Obeys c (.add path a) S S' [] (returned e)
  | delete {path vertex edge S S' e} : Effect (.delete vertex edge) S S' e → Obeys c (.delete path vertex edge) S S' [] (returned e)
  /-- The numbers are always printed, with or without `verbose`. -/
  | build {path verbose g n m v e} : Built g → HasVertices g n → ReportedEdges g m → Shown v n → Shown e m →
      Obeys c (.build path verbose) (some g.toSet) (some g.toSet)
        (line ("Vertices: ".toList ++ v) ++ line ("Edges: ".toList ++ e) ++ line "Done.".toList) 0
  | build_nothing {path verbose} : Obeys c (.build path verbose) none none [] 101
  | clean {path force silent G} : force = true ∨ SaysYes c.answer →
      Obeys c (.clean path force silent) (some G) none
        (prompt force (cleanQuestion path) ++ aloud silent (line (cleanStart path)) ++ aloud silent (line "Done.".toList)) 0
  | clean_nothing {path force silent} : force = true ∨ SaysYes c.answer →
      Obeys c (.clean path force silent) none none (prompt force (cleanQuestion path) ++ aloud silent (line (cleanStart path))) 101
  | clean_refused {path silent S} : ¬ SaysYes c.answer →
      Obeys c (.clean path false silent) S S (line (cleanQuestion path) ++ line "Aborting.".toList) 0
  /-- The options `connected` and `cycle` have no effect. -/
  | random {path force conn cyc vertexCount edgeCount vc ec G G'} : Sizes vertexCount edgeCount vc ec → force = true ∨ SaysYes c.answer →
      Generated c.rng vc ec G' → Obeys c (.random path force conn cyc vertexCount edgeCount) (some G) (some G') (prompt force (randomQuestion path)) 0
  | random_nothing {path force conn cyc vertexCount edgeCount vc ec} : Sizes vertexCount edgeCount vc ec → force = true ∨ SaysYes c.answer →
      Obeys c (.random path force conn cyc vertexCount edgeCount) none none (prompt force (randomQuestion path)) 101
  | random_refused {path conn cyc vertexCount edgeCount vc ec S} : Sizes vertexCount edgeCount vc ec → ¬ SaysYes c.answer →
      Obeys c (.random path false conn cyc vertexCount edgeCount) S S (line (randomQuestion path) ++ line "Aborting.".toList) 0
  | random_invalid {path force conn cyc vertexCount edgeCount S} : (∀ vc ec, ¬ Sizes vertexCount edgeCount vc ec) →
      Obeys c (.random path force conn cyc vertexCount edgeCount) S S [] 101
  | query {path q S t code} : Answers q S t code → Obeys c (.query path q) S S t code

/-- The path that a command line names; the working directory if it names none. -/
def namedPath (us : List Use) : Text := oneOr us "path" ['.']

/-- The graphs in all directories, after the one in `r` has become `S`. -/
def put (W : FPath → Option SetGraph) (r : FPath) (S : Option SetGraph) : FPath → Option SetGraph := fun r' => if r' = r then S else W r'

/-- A line typed: the graphs in all directories before and after, the text printed, and the exit code. -/
inductive Does (dir : Text → FPath) (l : Entry) (W : FPath → Option SetGraph) : (FPath → Option SetGraph) → Text → Nat → Prop where
  /-- A line that is not in order changes nothing and says nothing (on standard output). If something in it asks for help or for the
  version, then it is not in order before that. -/
  | refused : (∀ us, ¬ ByManual l.tool l.words us) →
      (∀ pre w post us e, l.words = pre ++ w :: post → Line (manual l.tool) pre us → ['-', '-'] ∉ pre → AsksClap (manual l.tool) e w →
        ∃ a ∈ (manual l.tool).args, ∃ k, a.maxValues = some k ∧ k < (given us a.name).length) → Does dir l W W [] 1
  /-- Neither does a line that asks for help or for the version, but it is answered. -/
  | told {pre w post us e} : l.words = pre ++ w :: post → Line (manual l.tool) pre us → ['-', '-'] ∉ pre → AsksClap (manual l.tool) e w →
      Does dir l W W (l.now.notice e) 0
  /-- A line that is in order does what it asks for, in the directory that it names. -/
  | obeys {us S t code} : ByManual l.tool l.words us → Obeys l.now (asks l.tool us) (W (dir (namedPath us))) S t code →
      Does dir l W (put W (dir (namedPath us)) S) t code

/-- Lines typed one after the other. -/
inductive Transcript (dir : Text → FPath) : List Entry → (FPath → Option SetGraph) → (FPath → Option SetGraph) → List (Text × Nat) → Prop where
  | nil {W} : Transcript dir [] W W []
  | cons {l ls W W' W'' t code outs} : Does dir l W W' t code → Transcript dir ls W' W'' outs →
      Transcript dir (l :: ls) W W'' ((t, code) :: outs)

/-- Directories of which none is inside of the files of the graph in another one. -/
def Separate (D : FPath → Prop) : Prop := ∀ r r', D r → D r' → r = r' ∨ Apart r r'

/-- The directory that the line names (if it is in order) is one of `D`. -/
def Within (dir : Text → FPath) (D : FPath → Prop) (l : Entry) : Prop := ∀ us, ByManual l.tool l.words us → D (dir (namedPath us))

/-- Only the graphs in the directories `D` have changed, and missing directories on the way to them may have been created. -/
def OnlyThere (D : FPath → Prop) (fs fs' : FS) : Prop :=
  ∀ q, fs' q = fs q ∨ ∃ r, D r ∧ (Own r q ∨ q <+: r ∧ fs q = none ∧ fs' q = some .dir)

end Terminal
end GC
