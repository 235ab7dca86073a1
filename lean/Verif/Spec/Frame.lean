/-
Specification of independence of graphs that live in different directories (C115).
-/
import Verif.Model.Crash
namespace GC
namespace Store

/-- The paths that belong to the graph in the directory `r`: the file `lock` in it, and `.graph` with everything below. -/
def Own (r q : FPath) : Prop := q = r ++ ["lock".toList] ∨ r ++ [".graph".toList] <+: q

/-- What commands on the graph in `r` may do to the file system: anything on the paths of the graph; elsewhere they only create missing
directories on the way to `r`. -/
def OnlyOwn (r : FPath) (fs fs' : FS) : Prop :=
  ∀ q, Own r q ∨ fs' q = fs q ∨ (q <+: r ∧ fs q = none ∧ fs' q = some .dir)

/-- The directory `r'` is `lock` or `.graph` of the directory `r`, or below one of them. -/
def Inside (r r' : FPath) : Prop := r ++ ["lock".toList] <+: r' ∨ r ++ [".graph".toList] <+: r'

/-- Two different directories, none inside of the files of the graph in the other one. One may be a subdirectory of the other. -/
def Apart (r r' : FPath) : Prop := r ≠ r' ∧ ¬ Inside r r' ∧ ¬ Inside r' r

/-- No regular file is in the way to the directory `r` (which may be missing). -/
def WayFree (fs : FS) (r : FPath) : Prop := ∀ q, q <+: r → ∀ c, fs q ≠ some (.file c)

/-- Commands in turn, each in its own directory, whatever their exit codes; the final state and the exit codes with the directories. Not a
function of the code: this is the user's shell. -/
def sessions (nd : Char → Bool) : List (FPath × Cmd) → FS → FS × List (FPath × Exit)
  | [], fs => (fs, [])
  | (r, cmd) :: l, fs =>
    let res := exec nd r cmd fs
    let s := sessions nd l res.1
    (s.1, (r, res.2) :: s.2)

/-- What of a list with directories concerns the directory `r`. -/
def ofDir {α : Type} (r : FPath) (l : List (FPath × α)) : List α := (l.filter fun p => p.1 = r).map Prod.snd

end Store
end GC
