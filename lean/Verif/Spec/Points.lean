import Verif.Spec.Steiner

/-!
# Specification of intersection points and tests with tolerances
-/

namespace Tet.Spec
variable {P K V T : Type} [Field K] [LinearOrder K]

/-- What `tri_intersections` gives: the edges that `tri_intersections_raw` gives, and points strictly inside the triangle and the
edge. -/
def TriPointsFound (m : Mesh (Pt K) V T) (t : V3) (r : Option (List ((VId × VId) × Pt K))) : Prop :=
  TriInters m t (r.map (·.map (·.1))) ∧ ∀ l, r = some l → ∀ x ∈ l, Amid m (corners (.tri t)) x.2 ∧ Amid m (corners (.edge x.1)) x.2

/-- The point `p` is on the other side of the plane through `a`, `b` and `c` than `d`, with a distance of at least `r`. -/
def FarBeyond (a b c d p : Pt K) (r : K) : Prop :=
  ∃ n : Pt K, n.norm2 = 1 ∧ n.dot (b.sub a) = 0 ∧ n.dot (c.sub a) = 0 ∧ n.dot (d.sub a) < 0 ∧ r ≤ n.dot (p.sub a)

/-- The point is in the tet or in its boundary. -/
def InClosedTet (a b c d p : Pt K) : Prop :=
  ∃ ka kb kc kd : K, 0 ≤ ka ∧ 0 ≤ kb ∧ 0 ≤ kc ∧ 0 ≤ kd ∧ ka + kb + kc + kd = 1 ∧ comb [(ka, a), (kb, b), (kc, c), (kd, d)] = p

/-- The point is between the vertices or at one of them: as `Amid`, but weights may be zero. -/
def Touches (m : Mesh (Pt K) V T) (vs : List VId) (p : Pt K) : Prop :=
  ∃ (wt : VId → K) (q : VId → Pt K), (∀ v ∈ vs, 0 ≤ wt v ∧ m.idxOri v = some (q v)) ∧
    (vs.map fun v => Mesh.ghostSign [v] * wt v).sum = 1 ∧
    p.x = (vs.map fun v => Mesh.ghostSign [v] * wt v * (q v).x).sum ∧
    p.y = (vs.map fun v => Mesh.ghostSign [v] * wt v * (q v).y).sum ∧
    p.z = (vs.map fun v => Mesh.ghostSign [v] * wt v * (q v).z).sum

/-- The segment from the vertex `v0` to the vertex `v1` comes upon the triangle at the time `t`, and does not run in its plane. -/
def ComesUpon (m : Mesh (Pt K) V T) (v0 v1 : VId) (p0 p1 : Pt K) (a b c : VId) (t : K) : Prop :=
  0 < t ∧ t ≤ 1 ∧ Touches m [a, b, c] (along p0 p1 t) ∧ m.orient a b c v0 ≠ m.orient a b c v1

/-- The first time at which the segment comes upon a triangle opposite to `v` in a tet. -/
def FirstHit (m : Mesh (Pt K) V T) (v v0 v1 : VId) (p0 p1 : Pt K) : Option K → Prop
  | none => ∀ a b c s, HasTet m (v, a, b, c) → ¬ ComesUpon m v0 v1 p0 p1 a b c s
  | some t => (∃ a b c, HasTet m (v, a, b, c) ∧ ComesUpon m v0 v1 p0 p1 a b c t) ∧
      ∀ a b c s, HasTet m (v, a, b, c) → ComesUpon m v0 v1 p0 p1 a b c s → t ≤ s

/-- The edge is in the plane of the triangle. -/
def InPlane (m : Mesh (Pt K) V T) (t : V3) (e : VId × VId) : Prop :=
  m.orient t.1 t.2.1 t.2.2 e.1 = some 0 ∧ m.orient t.1 t.2.1 t.2.2 e.2 = some 0

/-- The vertices of the triangles are three different solid vertices each. -/
def SolidTris (m : Mesh (Pt K) V T) (tris : List V3) : Prop :=
  ∀ t ∈ tris, [t.1, t.2.1, t.2.2].Nodup ∧ ∀ v ∈ [t.1, t.2.1, t.2.2], ∃ p, At m v p

/-- What `tris_intersections` gives: different edges of the mesh, with points where they touch the triangles or with a triangle
in whose plane they are. -/
def TrisFound (m : Mesh (Pt K) V T) (tris : List V3) (l : List ((VId × VId) × Pt K)) : Prop :=
  (l.map fun x => sorted2 x.1).Nodup ∧ ∀ x ∈ l, HasEdge m x.1.1 x.1.2 ∧ ∃ t ∈ tris,
    (Touches m [t.1, t.2.1, t.2.2] x.2 ∧ Touches m [x.1.1, x.1.2] x.2) ∨ InPlane m t x.1

/-- All tets at the vertex are positively oriented if the vertex is moved to `p`. -/
def StarShapedFrom (m : Mesh (Pt K) V T) (v : VId) (p : Pt K) : Prop :=
  ∀ a b c x y z, HasTet m (v, a, b, c) → m.idxOri a = some x → m.idxOri b = some y → m.idxOri c = some z →
    0 < Mesh.ghostSign [a, b, c] * orient3d p x y z

end Tet.Spec
