import Verif.Spec.Steps
import Verif.Spec.Local

/-!
# Flips of elements that are not locked

The places where a flip is possible as far as locks and the number of tets around an edge are concerned.  Whether
the new edge or triangle exists already is a separate question: that cannot happen in a mesh that is embedded in
space, but only geometry can tell.
-/

namespace Tet.Spec
variable {P V T : Type}

/-- The same triangles and edges are locked. -/
def SameLocks (m m' : Mesh P V T) : Prop :=
  (∀ s, LockedTri m' s ↔ LockedTri m s) ∧ ∀ a b, LockedEdge m' a b ↔ LockedEdge m a b

/-- `FlipAt m old new taken result`: the mesh has an element that is not locked and whose flip would replace the tets
`old` by `new`; `taken` says that the edge or triangle to be added exists already; `result` is what the flip function
gives. -/
inductive FlipAt (m : Mesh P V T) : List V4 → List V4 → Prop → Option (Mesh P V T × List Walker) → Prop
  | flip23 {w o a b c d e} (tet : m.tet4 w = some (a, b, c, d)) (adj : m.toAdj w = some o) (beyond : m.fourth o = some e)
      (tri : ¬ LockedTri m (a, b, c)) :
      FlipAt m [(a, b, c, d), (b, a, c, e)] [(b, a, d, e), (a, c, d, e), (c, b, d, e)] (d = e ∨ HasEdge m d e)
        (m.flip23Unchecked w)
  | flip32 {w o1 o2 x y c d e} (tet : m.tet4 w = some (x, y, c, d)) (s1 : m.ringStep w = some o1)
      (s2 : m.ringStep o1 = some o2) (s3 : m.ringStep o2 = some w) (third : m.fourth o1 = some e)
      (edge : ¬ LockedEdge m x y) (tris : ∀ u ∈ [c, d, e], ¬ LockedTri m (x, y, u)) :
      FlipAt m [(x, y, c, d), (x, y, d, e), (x, y, e, c)] [(d, c, e, x), (c, d, e, y)] (HasTri m (d, c, e))
        (m.flip32Unchecked w)
  | flip44 {w a1 a2 a3 x y p q r s} (tet : m.tet4 w = some (x, y, p, q)) (s1 : m.ringStep w = some a1)
      (s2 : m.ringStep a1 = some a2) (s3 : m.ringStep a2 = some a3) (s4 : m.ringStep a3 = some w) (ne : a2 ≠ w)
      (third : m.fourth a1 = some r) (fourth : m.fourth a2 = some s) (edge : ¬ LockedEdge m x y)
      (tris : ∀ u ∈ [p, q, r, s], ¬ LockedTri m (x, y, u)) :
      FlipAt m [(x, y, p, q), (x, y, q, r), (x, y, r, s), (x, y, s, p)]
        [(r, p, q, y), (r, p, y, s), (r, p, s, x), (r, p, x, q)] (HasEdge m p r) (m.flip44Unchecked w)

/-- Some ids are left. -/
def Room (m : Mesh P V T) : Prop := ∃ nT nE, m.numTets = some nT ∧ m.numEdges = some nE ∧ nT < idMax ∧ nE < idMax

/-- A flip of an unlocked element gives `m'`; it replaces `old` by `new`. -/
def Flips (m m' : Mesh P V T) (old new : List V4) : Prop :=
  ∃ taken ws, FlipAt m old new taken (some (m', ws)) ∧ ¬ taken ∧ Room m

/-- There is an unlocked element whose flip would replace `old` by `new`, but the edge or triangle to be added is
in the mesh already. -/
def Clashes (m : Mesh P V T) (old new : List V4) : Prop := ∃ taken r, FlipAt m old new taken r ∧ taken

end Tet.Spec
