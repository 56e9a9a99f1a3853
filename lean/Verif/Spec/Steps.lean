import Mathlib.Data.Set.Card
import Verif.Spec.Mesh
import Verif.Spec.Flips
import Verif.Model.Flips

/-!
# Flips as steps between meshes

One constructor per flip, with the conditions under which it is meant to be used; the last two
conditions say that there are ids left.
-/

namespace Tet.Spec
variable {P V T : Type}

/-- The vertex belongs to a tet. -/
def InMesh (m : Mesh P V T) (v : VId) : Prop := ∃ w, m.first w = some v

inductive FlipStep : Mesh P V T → Mesh P V T → Prop
  | flip14 {m m' : Mesh P V T} {k v ws nT nE} (live : Live m (Mesh.walkerFromTetId k))
      (exists_ : m.vertices.get v ≠ none) (new : ¬ InMesh m v)
      (hT : m.numTets = some nT) (hE : m.numEdges = some nE) (roomT : nT + 3 ≤ idMax) (roomE : nE + 4 ≤ idMax)
      (flip : m.flip14Unchecked (Mesh.walkerFromTetId k) v = some (m', ws)) : FlipStep m m'
  | flip23 {m m' : Mesh P V T} {w o d e ws nT nE} (adj : m.toAdj w = some o) (top : m.fourth w = some d)
      (bottom : m.fourth o = some e) (ne : d ≠ e) (no_edge : ¬ HasEdge m d e)
      (hT : m.numTets = some nT) (hE : m.numEdges = some nE) (roomT : nT < idMax) (roomE : nE < idMax)
      (flip : m.flip23Unchecked w = some (m', ws)) : FlipStep m m'
  | flip32 {m m' : Mesh P V T} {w o1 o2 x y c d e ws} (tet : m.tet4 w = some (x, y, c, d))
      (s1 : m.ringStep w = some o1) (s2 : m.ringStep o1 = some o2) (s3 : m.ringStep o2 = some w)
      (third : m.fourth o1 = some e) (no_tri : ¬ HasTri m (d, c, e))
      (flip : m.flip32Unchecked w = some (m', ws)) : FlipStep m m'
  | flip44 {m m' : Mesh P V T} {w a1 a2 a3 x y p q r s ws nT nE} (tet : m.tet4 w = some (x, y, p, q))
      (s1 : m.ringStep w = some a1) (s2 : m.ringStep a1 = some a2) (s3 : m.ringStep a2 = some a3)
      (s4 : m.ringStep a3 = some w) (ne : a2 ≠ w) (third : m.fourth a1 = some r)
      (fourth : m.fourth a2 = some s) (no_edge : ¬ HasEdge m p r)
      (hT : m.numTets = some nT) (hE : m.numEdges = some nE) (roomT : nT < idMax) (roomE : nE < idMax)
      (flip : m.flip44Unchecked w = some (m', ws)) : FlipStep m m'

/-- Finitely many flips. -/
inductive FlipSteps : Mesh P V T → Mesh P V T → Prop
  | refl (m) : FlipSteps m m
  | step {m m' m''} : FlipSteps m m' → FlipStep m' m'' → FlipSteps m m''

/-- The number of vertices that belong to tets (the ghost vertex included). -/
noncomputable def usedVertices (m : Mesh P V T) : Nat := {v | InMesh m v}.ncard

/-- The number of triangles, not counting the two sides separately. -/
noncomputable def triangles (m : Mesh P V T) : Nat :=
  {s : Finset VId | ∃ a b c, HasTri m (a, b, c) ∧ s = {a, b, c}}.ncard

end Tet.Spec
