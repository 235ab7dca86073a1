/-
std `BinaryHeap` (library/alloc/src/collections/binary_heap.rs): the algorithm behind the abstract `BinaryHeap` of `Verif/Model/Iter.lean`,
used by core/src/iter/iter_datastructure.rs 65-108.

The source of the standard library is not in /repo; the algorithm is the published one. Simplification: the standard library moves the
item in hand through a hole in the array; here it is swapped with its neighbour at every move, which leaves the same array.
-/
import Verif.Model.Iter
namespace GC
namespace StdHeap
variable {T : Type}

/-- `slice::swap`; nothing happens for an index out of bounds (which does not occur). std, used at core/src/iter/iter_datastructure.rs 65-108. -/
def swap (a : List T) (i j : Nat) : List T :=
  match a[i]?, a[j]? with
  | some x, some y => (a.set i y).set j x
  | _, _ => a

/-- `x <= y` for the items at two places. std, used at core/src/iter/iter_datastructure.rs 65-108. -/
def leAt (le : T → T → Bool) (a : List T) (i j : Nat) : Bool :=
  match a[i]?, a[j]? with
  | some x, some y => le x y
  | _, _ => true

/-- `BinaryHeap::sift_up(0, pos)`: moves up while the item is greater than its parent. The fuel is the number of moves left; `pos` is
enough. std, used at core/src/iter/iter_datastructure.rs 65-108. -/
def siftUp (le : T → T → Bool) : Nat → List T → Nat → List T
  | 0, a, _ => a
  | fuel + 1, a, pos =>
    if pos = 0 then a
    else if leAt le a pos ((pos - 1) / 2) then a
    else siftUp le fuel (swap a pos ((pos - 1) / 2)) ((pos - 1) / 2)

/-- The loop of `BinaryHeap::sift_down_to_bottom(0)`: the item moves down to the greater child (the right one of equal children) until
it has no child; the array and the place of the item. The fuel is the number of moves left; the length is enough. std, used at
core/src/iter/iter_datastructure.rs 65-108. -/
def siftDown (le : T → T → Bool) : Nat → List T → Nat → List T × Nat
  | 0, a, pos => (a, pos)
  | fuel + 1, a, pos =>
    let child := 2 * pos + 1
    if child + 2 ≤ a.length then
      let child := if leAt le a child (child + 1) then child + 1 else child
      siftDown le fuel (swap a pos child) child
    else if child + 1 = a.length then (swap a pos child, child)
    else (a, pos)

/-- `BinaryHeap::push`. std, used at core/src/iter/iter_datastructure.rs 65-108. -/
def push (le : T → T → Bool) (a : List T) (x : T) : List T := siftUp le a.length (a ++ [x]) a.length

/-- `BinaryHeap::pop`: the last item is taken off; if others remain, it changes places with the first, sinks to the bottom and rises
from there. std, used at core/src/iter/iter_datastructure.rs 65-108. -/
def pop (le : T → T → Bool) (a : List T) : Option (T × List T) :=
  match a.getLast? with
  | none => none
  | some item =>
    match a.dropLast with
    | [] => some (item, [])
    | first :: l =>
      let r := siftDown le (l.length + 1) (item :: l) 0
      some (first, siftUp le r.2 r.1 r.2)

end StdHeap
end GC
