import Verif.Spec.Unlocked

/-!
# Flips that improve the quality
-/

namespace Tet.Spec
variable {P V T K : Type} [LinearOrder K]

/-- The quality of a tet depends on the vertices of the mesh only, and not on the order of the four vertices of the
tet up to even permutations. -/
structure GoodQuality (quality : Mesh P V T → V4 → K) (m : Mesh P V T) : Prop where
  verts : ∀ m', SameVertices m m' → ∀ p, quality m' p = quality m p
  even : ∀ a b c d q, [a, b, c, d].Nodup → SameTet (a, b, c, d) q → quality m q = quality m (a, b, c, d)

/-- All tets in `new` are better than the worst one in `old`. -/
def Improves (quality : Mesh P V T → V4 → K) (m : Mesh P V T) (old new : List V4) : Prop :=
  ∃ p ∈ old, ∀ q ∈ new, quality m p < quality m q

/-- A flip of an unlocked element that improves the quality; without the triangle index it also makes the number of
tets smaller, that is, it is a 3-to-2 flip. -/
def QualityFlip (quality : Mesh P V T → V4 → K) (m m' : Mesh P V T) : Prop :=
  ∃ old new, Flips m m' old new ∧ Improves quality m old new ∧ (m.trackTriMap = false → new.length < old.length)

/-- Any number of such flips. -/
inductive QualityRun (quality : Mesh P V T → V4 → K) : Mesh P V T → Mesh P V T → Prop
  | refl (m) : QualityRun quality m m
  | step {m m1 m2} : QualityFlip quality m m1 → QualityRun quality m1 m2 → QualityRun quality m m2

/-- An improving flip would have to add an edge or a triangle that exists, or there are no ids left. -/
def QualityStuck (quality : Mesh P V T → V4 → K) (m : Mesh P V T) : Prop :=
  (∃ old new, Clashes m old new ∧ Improves quality m old new) ∨ ¬ Room m

end Tet.Spec
