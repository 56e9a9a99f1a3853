import Verif.Model.Delaunay
import Verif.Spec.Iter
import Verif.Spec.Cavity
import Verif.Spec.FlipIn
import Verif.Spec.Steps

/-!
# What the search for a tet that is no longer Delaunay should do
-/

namespace Tet.Spec
variable {P V T D R K : Type}

/-- The distances are numbers: `<` is a strict order in which infinity is not less than anything, and
`FloatOrd` refines it. -/
structure Distances (g : DelaunayGeo P D R K) : Prop where
  irrefl : ∀ a, g.ltD a a = false
  trans : ∀ a b c, g.ltD a b → g.ltD b c → g.ltD a c
  inf : ∀ a, g.ltD g.infinity a = false
  total : ∀ a b, g.leD a b || g.leD b a
  leTrans : ∀ a b c, g.leD a b → g.leD b c → g.leD a c
  le_lt : ∀ a b c, g.leD a b → g.ltD b c → g.ltD a c

/-- The new vertex is strictly inside the circumsphere of the tet. -/
def Violated (g : DelaunayGeo P D R K) (m : Mesh P V T) (id : VId) (k : TId) : Prop :=
  ∃ q, m.tet4 (Mesh.walkerFromTetId k) = some q ∧ 0 < (g.tests m.position id).inSphere q

/-- The squared distance of `u` is less than that of `v`. -/
def Closer (g : DelaunayGeo P D R K) (m : Mesh P V T) (id u v : VId) : Prop :=
  ∃ a b, m.distance2 g u id = some a ∧ m.distance2 g v id = some b ∧ g.ltD a b = true

/-- The search gave up: it reached a vertex none of whose neighbours is closer, and neither a tet with this
vertex nor one next to such a tet has the new vertex inside its circumsphere.  (`StarReach`: as far as the
tets with the vertex are connected.) -/
def GaveUp (g : DelaunayGeo P D R K) (m : Mesh P V T) (id : VId) : Prop :=
  ∃ c w, c ≠ GHOST ∧ m.walkerFromVertex c = some w ∧ m.first w = some c ∧
    (∀ x u, StarReach m c w.tet x → (∃ y : Walker, y.tet = x ∧ m.edge y = some (c, u)) → u ≠ id → ¬ Closer g m id u c) ∧
    (∀ k, StarReach m c w.tet k → ¬ Violated g m id k) ∧
    ∀ y z : Walker, StarReach m c w.tet y.tet → m.toAdj y = some z → ¬ Violated g m id z.tet

/-- The mesh is consistent and no temporary marks are left in it. -/
structure Ready (m : Mesh P V T) : Prop where
  consistent : Consistent m
  unmarked : Unmarked m
  tidy : Tidy m
  noMarks : NoMarks m

/-- The mesh `m'` is `m` after its tets `E`, whose surface is listed in `B`, have been replaced by one tet
per outer triangle, joining it to `id`; locks of everything that remains are as before and what is new is not
locked; all positions and values are as before. -/
structure Coned (m m' : Mesh P V T) (id : VId) (E : List TId) (B : List Walker) : Prop where
  tets : ∃ old new, E.map (fun k => m.tet4 (Mesh.walkerFromTetId k)) = old.map some ∧
    B.map m.tri = new.map (fun q => some (q.1, q.2.1, q.2.2.1)) ∧ (∀ q ∈ new, q.2.2.2 = id) ∧ Replaces m m' old new
  locks : LocksKept m m'
  payload : ∀ u, (m'.vertices.get u).map (fun y => (y.position, y.value)) =
    (m.vertices.get u).map fun y => (y.position, y.value)

/-- What inserting the vertex `id`, already stored in `m`, should do, where `run` is the call with a bound on
the rounds: the search for a violated tet gives up, and this is a panic; or the cavity consists of all tets that
can be reached from a violated tet by crossing into conflicting tets, and if it can be filled (and the ids suffice),
the call returns and has replaced the cavity by cones from the vertex. -/
def Inserts (g : DelaunayGeo P D R K) (m : Mesh P V T) (id : VId) (run : Nat → Option (Mesh P V T × VId)) : Prop :=
  ∃ N, (GaveUp g m id ∧ ∀ fuel ≥ N, run fuel = none) ∨
    ∃ k E B, Violated g m id k ∧ E.Nodup ∧
      (∀ j, j ∈ E ↔ Reached m (Conflicts (g.tests m.position id).inSphere m) [k] j) ∧ Boundary m E B ∧
      (Fillable m E → ∀ nT nE, m.numTets = some nT → m.numEdges = some nE → nT + B.length ≤ idMax →
        nE + 3 * B.length ≤ idMax → ∃ m', (∀ fuel ≥ N, run fuel = some (m', id)) ∧ Ready m' ∧ Coned m m' id E B ∧
        InMesh m' id ∧ ∀ v, InMesh m v → InMesh m' v)

/-- The sign of the sphere test does not depend on the way the tet is written. -/
def Invariant (g : DelaunayGeo P D R K) : Prop := ∀ pos id p q, Function.Injective (quad p) → SameTet p q →
  (g.tests pos id).inSphere p = (g.tests pos id).inSphere q

end Tet.Spec
