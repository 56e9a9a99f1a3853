import Verif.Model.Geo

/-!
# What the geometric predicates are to decide

Points are in three-dimensional space over an ordered field.
-/

namespace Tet.Spec
variable {K : Type} [Field K]

/-- Weighted sum of points. -/
def comb : List (K × Pt K) → Pt K
  | [] => ⟨0, 0, 0⟩
  | (k, p) :: l => (Pt.smul k p).add (comb l)

/-- All the points satisfy a linear equation `n · p = c` with `n ≠ 0`. -/
def Coplanar (ps : List (Pt K)) : Prop :=
  ∃ n : Pt K, n ≠ ⟨0, 0, 0⟩ ∧ ∃ c, ∀ p ∈ ps, n.dot p = c

variable [LinearOrder K]

/-- `p` is strictly inside the tet. -/
def InTet (a b c d p : Pt K) : Prop :=
  ∃ ka kb kc kd : K, 0 < ka ∧ 0 < kb ∧ 0 < kc ∧ 0 < kd ∧ ka + kb + kc + kd = 1 ∧
    comb [(ka, a), (kb, b), (kc, c), (kd, d)] = p

/-- `p` is strictly inside the triangle. -/
def InTri (a b c p : Pt K) : Prop :=
  ∃ ka kb kc : K, 0 < ka ∧ 0 < kb ∧ 0 < kc ∧ ka + kb + kc = 1 ∧
    comb [(ka, a), (kb, b), (kc, c)] = p

/-- `p` is strictly inside the segment. -/
def InSeg (a b p : Pt K) : Prop :=
  ∃ ka kb : K, 0 < ka ∧ 0 < kb ∧ ka + kb = 1 ∧ comb [(ka, a), (kb, b)] = p

/-- The point `o` has distance squared `r2` from all of `ps`. -/
def OnSphere (o : Pt K) (r2 : K) (ps : List (Pt K)) : Prop := ∀ p ∈ ps, (p.sub o).norm2 = r2

/-- The line through `a` and `b` and the plane through `a`, `b` and `c`. -/
def OnLine (a b p : Pt K) : Prop := ∃ ka kb : K, ka + kb = 1 ∧ comb [(ka, a), (kb, b)] = p
def OnPlane (a b c p : Pt K) : Prop :=
  ∃ ka kb kc : K, ka + kb + kc = 1 ∧ comb [(ka, a), (kb, b), (kc, c)] = p

/-- `p` and `q` are on opposite simplexes of the tet: a vertex and the plane of the opposite triangle,
or the lines of two opposite edges. -/
def OnOpposite (a b c d p q : Pt K) : Prop :=
  (p = a ∧ OnPlane b c d q) ∨ (p = b ∧ OnPlane a c d q) ∨ (p = c ∧ OnPlane a b d q) ∨
  (p = d ∧ OnPlane a b c q) ∨ (OnLine a b p ∧ OnLine c d q) ∨ (OnLine a c p ∧ OnLine b d q) ∨
  (OnLine a d p ∧ OnLine b c q)

/-- The vectors have the same or opposite directions (or one is zero). -/
def Parallel (u v : Pt K) : Prop := ∃ k l : K, (k ≠ 0 ∨ l ≠ 0) ∧ Pt.smul k u = Pt.smul l v

/-- The solid vertex `v` has position `p`. -/
def At {V T : Type} (m : Mesh (Pt K) V T) (v : VId) (p : Pt K) : Prop :=
  v ≠ GHOST ∧ ∃ x, m.vertices.get v = some x ∧ x.position = p

/-- `norm` is the length of vectors. -/
structure IsNorm (norm : Pt K → K) : Prop where
  nonneg : ∀ v, 0 ≤ norm v
  sq : ∀ v, norm v * norm v = v.norm2

/-- `sim` decides the orientation of the positions, breaking ties consistently: it is the sign where
that is not zero and changes under exchange of two of the four arguments, if they are distinct. -/
structure IsSim (pos : VId → Option (Pt K)) (sim : VId → VId → VId → VId → Bool) : Prop where
  sign : ∀ a b c d pa pb pc pd, pos a = some pa → pos b = some pb → pos c = some pc → pos d = some pd →
    orient3d pa pb pc pd ≠ 0 → sim a b c d = decide (0 < orient3d pa pb pc pd)
  swap01 : ∀ a b c d, [a, b, c, d].Nodup → sim b a c d = !sim a b c d
  swap12 : ∀ a b c d, [a, b, c, d].Nodup → sim a c b d = !sim a b c d
  swap23 : ∀ a b c d, [a, b, c, d].Nodup → sim a b d c = !sim a b c d

end Tet.Spec
