import Mathlib.Data.List.Chain
import Verif.Model.Iter
import Verif.Spec.Steps

/-!
# What the iterators should do
-/

namespace Tet.Spec
variable {P V T : Type}

/-- Calling `next` again and again, the iterator in state `s` gives the elements of `l` in order,
and `None` forever afterwards. -/
def Yields {σ α : Type} (next : σ → Option (Option α × σ)) (s : σ) (l : List α) : Prop :=
  ∀ n, ∃ s', calls next n s = some ((List.range n).map (l[·]?), s')

/-- `next` runs through `a`, the elements of `l` in order, and then comes back to `a`. -/
def RunsThrough {K : Type} (next : K → Option K) (a : K) (l : List K) : Prop :=
  List.IsChain (fun x y => next x = some y) (a :: l ++ [a])

/-- The tet `k` is reached from the tet `k0` by crossing triangles with the corner `v`. -/
inductive StarReach (m : Mesh P V T) (v : VId) (k0 : TId) : TId → Prop
  | refl : StarReach m v k0 k0
  | cross {w w'} : StarReach m v k0 w.tet → m.first w = some v → m.toAdj w = some w' →
      StarReach m v k0 w'.tet

/-- The tets with the corner `v` are connected through triangles with the corner `v`. -/
def StarConnected (m : Mesh P V T) (v : VId) : Prop :=
  ∀ w w', m.first w = some v → m.first w' = some v → StarReach m v w.tet w'.tet

/-- No marker used by the flag-based traversals is set. -/
def NoMarks (m : Mesh P V T) : Prop :=
  (∀ k t, m.tets.get k = some t → t.flags.walkersFromVertex = false) ∧
  (∀ v x, m.vertices.get v = some x → x.flags.targets = false) ∧ m.ghostFlags.targets = false

end Tet.Spec
