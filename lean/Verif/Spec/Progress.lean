import Verif.Model.Progress
import Verif.Spec.Unlocked

/-!
# Removing an edge or a triangle by flips
-/

namespace Tet.Spec
variable {P V T : Type}

/-- The orientation test depends on the vertices of the mesh only, is the same for even permutations of four different
vertices, and does not hold for both orders of a pair of mirror images. -/
structure GoodOrient (pos : Mesh P V T → V4 → Bool) (m : Mesh P V T) : Prop where
  verts : ∀ m', SameVertices m m' → ∀ p, pos m' p = pos m p
  even : ∀ a b c d q, [a, b, c, d].Nodup → SameTet (a, b, c, d) q → pos m q = pos m (a, b, c, d)
  mirror : ∀ a b c d, pos m (a, b, c, d) = true → pos m (a, b, d, c) = false

/-- No tet is negatively oriented (tets without volume are allowed), and no two tets are mirror images. -/
def Oriented (pos : Mesh P V T → V4 → Bool) (m : Mesh P V T) : Prop :=
  ∀ a b c d, HasTet m (a, b, c, d) → pos m (a, b, d, c) = false ∧ ¬ HasTet m (a, b, d, c)

/-- A flip of an unlocked element to positively oriented tets that only adds an edge and triangles which may be added. -/
def ProgressFlip (tests : ProgressTests P V T) (m m' : Mesh P V T) : Prop :=
  ∃ old new, Flips m m' old new ∧ (∀ q ∈ new, tests.pos m q = true) ∧
    (∀ a b, HasEdge m' a b → HasEdge m a b ∨ tests.edgeAddable m (a, b) = true ∨ tests.edgeAddable m (b, a) = true) ∧
    ∀ a b c, HasTri m' (a, b, c) → HasTri m (a, b, c) ∨
      ∃ a' b' c', [a', b', c'].Perm [a, b, c] ∧ tests.triAddable m (a', b', c') = true

/-- Any number of such flips. -/
inductive ProgressRun (tests : ProgressTests P V T) : Mesh P V T → Mesh P V T → Prop
  | refl (m) : ProgressRun tests m m
  | step {m m1 m2} : ProgressFlip tests m m1 → ProgressRun tests m1 m2 → ProgressRun tests m m2

/-- A flip of an unlocked element to positively oriented tets would have to add an edge or a triangle that exists, or
there are no ids left. -/
def ProgressStuck (tests : ProgressTests P V T) (m : Mesh P V T) : Prop :=
  (∃ old new, Clashes m old new ∧ ∀ q ∈ new, tests.pos m q = true) ∨ ¬ Room m

/-- What is expected of the mesh: it is consistent, has its map of triangles and no tets of the wrong orientation, and
it does not get stuck. -/
structure ProgressReady (tests : ProgressTests P V T) (m : Mesh P V T) : Prop where
  consistent : Consistent m
  tracked : m.trackTriMap = true
  orient : GoodOrient tests.pos m
  oriented : Oriented tests.pos m
  never : ∀ m1, ProgressRun tests m m1 → ¬ ProgressStuck tests m1

/-- The element is in the mesh. -/
def Present (m : Mesh P V T) : EdgeOrTri → Prop
  | .edge e => HasEdge m e.1 e.2
  | .tri t => HasTri m t

/-- `goals` has to consist of elements with sorted vertices. -/
def SortedGoal : EdgeOrTri → Prop
  | .edge e => e.1 ≤ e.2
  | .tri t => t.1 ≤ t.2.1 ∧ t.2.1 ≤ t.2.2

/-- What is expected of `goals` and `bad_edges`: the bad edges are edges of the mesh that are to be removed. -/
def GoodCall (m : Mesh P V T) (goals : List EdgeOrTri) (bad : List (VId × VId)) : Prop :=
  (∀ g ∈ goals, SortedGoal g) ∧ ∀ e ∈ bad, .edge e ∈ goals ∧ HasEdge m e.1 e.2

/-- The goals that were in `m` are in `m'`. -/
def KeepsGoals (m m' : Mesh P V T) (goals : List EdgeOrTri) : Prop := ∀ g ∈ goals, Present m g → Present m' g

/-- No triangle was added to a bad edge. -/
def SparesBad (m m' : Mesh P V T) (bad : List (VId × VId)) : Prop :=
  ∀ a b c, (a, b) ∈ bad ∨ (b, a) ∈ bad → HasTri m' (a, b, c) → HasTri m (a, b, c)

/-- The result of trying to remove the last one of `goals`: `None` if no goal was removed; otherwise the index of the
first goal that was removed. -/
structure Progressed (tests : ProgressTests P V T) (m m' : Mesh P V T) (goals : List EdgeOrTri) (bad : List (VId × VId))
    (index : Option Nat) : Prop where
  run : ProgressRun tests m m'
  bad : SparesBad m m' bad
  blocked : index = none → KeepsGoals m m' goals
  removed : ∀ i, index = some i → (∃ g, goals[i]? = some g ∧ ¬ Present m' g) ∧ KeepsGoals m m' (goals.take i)

end Tet.Spec
