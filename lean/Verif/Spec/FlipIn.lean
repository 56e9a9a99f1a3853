import Verif.Spec.Mesh

/-!
# Cavities that can be filled
-/

namespace Tet.Spec
variable {P V T : Type}

/-- The triangle of the walker leads out of the tets `E`. -/
def Outer (m : Mesh P V T) (E : List TId) (w : Walker) : Prop :=
  w.tet ∈ E ∧ ∃ w', m.toAdj w = some w' ∧ w'.tet ∉ E

/-- Turning around the first vertex on the outer triangles, from triangle to triangle. -/
inductive Fan (m : Mesh P V T) (E : List TId) (w : Walker) : Walker → Prop
  | refl : Fan m E w w
  | step {x y a b c} : Fan m E w x → m.tri x = some (a, b, c) → Outer m E y → m.edge y = some (a, c) → Fan m E w y

/-- The surface of the tets `E` is a manifold and no vertex is inside. -/
structure Fillable (m : Mesh P V T) (E : List TId) : Prop where
  live : ∀ k ∈ E, (m.tets.get k).isSome
  /-- an edge has one outer triangle on each side -/
  edges : ∀ w w', Outer m E w → Outer m E w' → m.edge w = m.edge w' → w = w'
  /-- the outer triangles at a vertex form one fan -/
  fans : ∀ w w', Outer m E w → Outer m E w' → m.first w = m.first w' → Fan m E w w'
  /-- every vertex is on the surface -/
  surface : ∀ w v, w.tet ∈ E → m.first w = some v → ∃ w', Outer m E w' ∧ m.first w' = some v

/-- No flags used by the filling are set. -/
structure Tidy (m : Mesh P V T) : Prop where
  tets : ∀ k t, m.tets.get k = some t → t.flags.boundary = false ∧ t.flags.needsDuplication = false
  edges : ∀ e ue, m.edges.get e = some ue → ue.boundary = false ∧ ue.boundaryWalker.tet = idMax
  vertices : ∀ v x, m.vertices.get v = some x → x.flags.edgeAdded = false
  ghost : m.ghostFlags.edgeAdded = false

end Tet.Spec
