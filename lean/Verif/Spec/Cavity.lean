import Verif.Spec.Mesh

/-!
# What a cavity is
-/

namespace Tet.Spec
variable {P V T : Type}

/-- The walkers have the same current triangle. -/
def SameTri (a b : Walker) : Prop := b = a ∨ b = a.nfe ∨ b = a.pfe

/-- `B` lists the triangles between the tets in `E` and the others exactly once, seen from `E`. -/
structure Boundary (m : Mesh P V T) (E : List TId) (B : List Walker) : Prop where
  once : B.Pairwise fun a b => ¬ SameTri a b
  exact : ∀ w, (∃ b ∈ B, SameTri b w) ↔ w.tet ∈ E ∧ ∃ w', m.toAdj w = some w' ∧ w'.tet ∉ E

/-- Reachable from `start` by crossing triangles into tets that satisfy `p`. -/
inductive Reached (m : Mesh P V T) (p : TId → Prop) (start : List TId) : TId → Prop
  | start {k} : k ∈ start → Reached m p start k
  | step {w w' : Walker} : Reached m p start w.tet → m.toAdj w = some w' → p w'.tet → Reached m p start w'.tet

/-- The tet has to go: the new vertex is not outside its circumsphere, where `inSphere` is the sign of
the test.  For a ghost tet on whose sphere (a plane) the vertex is, the tet beyond the solid triangle
decides. -/
def Conflicts (inSphere : V4 → Int) (m : Mesh P V T) (k : TId) : Prop :=
  ∃ w q, w.tet = k ∧ m.tet4 w = some q ∧ (0 < inSphere q ∨ inSphere q = 0 ∧
    ∀ w, w.tet = k → m.fourth w = some GHOST → ∃ w' q', m.toAdj w = some w' ∧ m.tet4 w' = some q' ∧ 0 ≤ inSphere q')

/-- No marks of the cavity are set. -/
def Unmarked (m : Mesh P V T) : Prop := ∀ k t, m.tets.get k = some t →
  (∀ i, t.flags.boundImm i = false) ∧ (∀ i, t.flags.boundLimit i = false) ∧ t.flags.notEnclosure = false

/-- A part of the cavity that the new vertex sees from inside: all triangles that leave it are seen from
the good side, and no excluded tet has a triangle that leaves it. -/
def Visible (m : Mesh P V T) (above : V3 → Bool) (exclude E : List TId) (U : TId → Prop) : Prop :=
  (∀ k, U k → k ∈ E) ∧ ∀ w w' vs, U w.tet → m.toAdj w = some w' → ¬ U w'.tet → m.tri w = some vs →
    w.tet ∉ exclude ∧ above vs = true

/-- The edge of the walker is locked. -/
def EdgeLocked (m : Mesh P V T) (w : Walker) : Prop :=
  ∃ e ue, m.undirEdge w = some e ∧ m.edges.get e = some ue ∧ ue.locked = true

/-- The triangle of the walker and its three edges are locked. -/
def TriAndEdgesLocked (m : Mesh P V T) (w : Walker) : Prop :=
  m.triLocked w = some true ∧ EdgeLocked m w ∧ EdgeLocked m w.nfe ∧ EdgeLocked m w.pfe

/-- Every tet at the edge of the walker is in the list. -/
def Surrounded (m : Mesh P V T) (E : List TId) (w : Walker) : Prop := ∀ w', SameRing m w w' → w'.tet ∈ E

end Tet.Spec
