import Verif.Proofs.DelaunayFinal

/-!
# `delaunay_from_vertices` returns the Delaunay mesh: C73
-/

namespace Tet
open Spec
variable {K H H' V T T' : Type} [Field K] [LinearOrder K] [IsStrictOrderedRing K]

theorem sorted_ids {P : Type} {key : List P → P → H} {le : H → H → Bool} {points : List (P × V)} {l}
    (h : hilbertSort key le points = some l) (hmax : points.length ≤ idMax) :
    l.length = points.length ∧ (l.map (·.1)).Perm (List.range l.length) ∧ (l.map (·.2.1)).Perm (points.map (·.1)) := by
  have hp := tagged_perm h
  have hlen : l.length = points.length := by rw [hp.length_eq]; simp
  have e1 : (points.zipIdx.map fun x => (x.2 % 2 ^ 32, x.1)) = points.zipIdx.map fun x => (x.2, x.1) := by
    apply List.map_congr_left
    rintro ⟨p, i⟩ hx
    have := (List.getElem?_eq_some_iff.1 (List.mem_zipIdx_iff_getElem?.1 hx)).1
    simp only [Prod.mk.injEq, and_true]
    exact Nat.mod_eq_of_lt (by simp only [idMax] at hmax; simp only at this; omega)
  rw [e1] at hp
  refine ⟨hlen, ?_, ?_⟩
  · refine (hp.map _).trans ?_
    rw [List.map_map, hlen]
    have : (points.zipIdx.map ((fun x : VId × P × V => x.1) ∘ fun x : (P × V) × Nat => (x.2, x.1))) = List.range points.length := by
      rw [List.range_eq_range', ← List.zipIdx_map_snd 0 points]
      rfl
    rw [this]
  · refine (hp.map _).trans ?_
    rw [List.map_map]
    have : (points.zipIdx.map ((fun x : VId × P × V => x.2.1) ∘ fun x : (P × V) × Nat => (x.2, x.1))) =
        (points.zipIdx.map Prod.fst).map (·.1) := by
      rw [List.map_map]
      rfl
    rw [this, List.zipIdx_map_fst]

theorem GeneralPosition.perm {ps qs : List (Pt K)} (h : GeneralPosition ps) (hp : qs.Perm ps) : GeneralPosition qs :=
  ⟨fun l h1 h2 => h.planes l h1 (h2.trans hp.subperm), fun l h1 h2 => h.spheres l h1 (h2.trans hp.subperm)⟩

theorem Wide.perm {norm : Pt K → K} {tol : K} {ps qs : List (Pt K)} (h : Wide norm tol ps) (hp : qs.Perm ps) : Wide norm tol qs :=
  ⟨fun a b h1 => h.edges a b (h1.trans hp.subperm), fun a b c h1 => h.triangles a b c (h1.trans hp.subperm),
    fun a b c d h1 => h.tets a b c d (h1.trans hp.subperm)⟩

/-- C73: given at least four points in general position that are far enough apart, `delaunay_from_vertices` returns,
and the result is a consistent Delaunay mesh whose vertices are exactly the points, with their values. -/
theorem C73_build {norm : Pt K → K} {tol : K} {sim} {key : List (Pt K) → Pt K → H} {leH} {order : List TId → List TId}
    (ho : ∀ l, (order l).Perm l) (htol : 0 < tol)
    (hsim : ∀ a b c d, orient3d a b c d ≠ 0 → sim a b c d = decide (0 < orient3d a b c d)) {points : List (Pt K × V)}
    (h4 : 4 ≤ points.length) (hgp : GeneralPosition (points.map (·.1))) (hw : Wide norm tol (points.map (·.1)))
    (room : 13 * (points.length * (points.length + 1)) ≤ idMax) (nan origin : Pt K) (dt : T) :
    ∃ N m, (∀ fuel ≥ N, Mesh.delaunayFromVertices (exactGeo norm tol sim key leH) order fuel nan origin points dt = some m) ∧
      Ready m ∧ Delaunay m ∧ (∀ v, InMesh m v ↔ v < points.length ∨ v = GHOST) ∧ m.numVertices = some points.length ∧
      ∀ i : Nat, (m.vertices.get i).map (fun x => (x.position, x.value)) = points[i]? := by
  have hne : points ≠ [] := by rintro rfl; simp at h4
  obtain ⟨l, hl⟩ : ∃ l, hilbertSort (exactGeo norm tol sim key leH).key (exactGeo norm tol sim key leH).leK points = some l := by
    unfold hilbertSort
    rw [if_neg hne]
    exact ⟨_, rfl⟩
  obtain ⟨e1, e2, e3⟩ := sorted_ids hl (by nlinarith)
  obtain ⟨N, m, h1, B⟩ := sorted_build (norm := norm) (tol := tol) (sim := sim) (key := key) (leH := leH) ho htol hsim e2 (by omega)
    (GeneralPosition.perm hgp e3) (Wide.perm hw e3) (by rw [e1]; exact room) nan origin dt
  have hrun : ∀ fuel ≥ N, Mesh.delaunayFromVertices (exactGeo norm tol sim key leH) order fuel nan origin points dt = some m := by
    intro fuel hf
    unfold Mesh.delaunayFromVertices
    exact (bind_step hl _).trans (h1 fuel hf)
  obtain ⟨-, h5, h6⟩ := C43_vertices (hrun N le_rfl)
  refine ⟨N, m, hrun, B.ready, B.delaunay, fun v => (B.inMesh v).trans (or_congr ?_ Iff.rfl), h5, h6⟩
  rw [← e1, ← List.mem_range, ← e2.mem_iff, List.mem_map]
  exact ⟨fun ⟨x, h, e⟩ => ⟨x, h, e.symm⟩, fun ⟨x, h, e⟩ => ⟨x, h, e.symm⟩⟩

theorem at_point {points : List (Pt K × V)} {m : Mesh (Pt K) V T}
    (hp : ∀ i : Nat, (m.vertices.get i).map (fun x => (x.position, x.value)) = points[i]?) (hmax : points.length ≤ idMax)
    (i : Nat) (p : Pt K) : At m i p ↔ (points.map (·.1))[i]? = some p := by
  rw [at_iff, hp, List.getElem?_map]
  refine ⟨fun h => h.2, fun h => ⟨?_, h⟩⟩
  rintro rfl
  rw [List.getElem?_eq_none (show points.length ≤ GHOST from hmax)] at h
  cases h

/-- C73: the tets of the result are exactly the positively oriented quadruples of points with no other point in or on
their circumscribed sphere, and its ghost tets are exactly the triples with all other points strictly behind them. -/
theorem C73_tets {norm : Pt K → K} {tol : K} {sim} {key : List (Pt K) → Pt K → H} {leH} {order : List TId → List TId}
    (ho : ∀ l, (order l).Perm l) (htol : 0 < tol)
    (hsim : ∀ a b c d, orient3d a b c d ≠ 0 → sim a b c d = decide (0 < orient3d a b c d)) {points : List (Pt K × V)}
    (h4 : 4 ≤ points.length) (hgp : GeneralPosition (points.map (·.1))) (hw : Wide norm tol (points.map (·.1)))
    (room : 13 * (points.length * (points.length + 1)) ≤ idMax) (nan origin : Pt K) (dt : T) :
    ∃ N m, (∀ fuel ≥ N, Mesh.delaunayFromVertices (exactGeo norm tol sim key leH) order fuel nan origin points dt = some m) ∧
      (∀ a b c d pa pb pc pd, (points.map (·.1))[a]? = some pa → (points.map (·.1))[b]? = some pb →
        (points.map (·.1))[c]? = some pc → (points.map (·.1))[d]? = some pd → (HasTet m (a, b, c, d) ↔
          0 < orient3d pa pb pc pd ∧ ∀ v pv, (points.map (·.1))[v]? = some pv → v ∉ [a, b, c, d] →
            ∀ o r2, OnSphere o r2 [pa, pb, pc, pd] → r2 < (pv.sub o).norm2)) ∧
      (∀ a b c pa pb pc, (points.map (·.1))[a]? = some pa → (points.map (·.1))[b]? = some pb →
        (points.map (·.1))[c]? = some pc → [a, b, c].Nodup → (HasTet m (a, b, c, GHOST) ↔
          ∀ v pv, (points.map (·.1))[v]? = some pv → v ∉ [a, b, c] → orient3d pa pb pc pv < 0)) ∧
      ∀ a b c d, HasTet m (a, b, c, d) → ∀ v ∈ [a, b, c, d], v < points.length ∨ v = GHOST := by
  obtain ⟨N, m, h1, h2, h3, h5, -, h6⟩ := C73_build (T := T) ho htol hsim h4 hgp hw room nan origin dt (key := key) (leH := leH)
  have hmax : points.length ≤ idMax := by nlinarith
  have hat := at_point h6 hmax
  have hin : ∀ {v p}, (points.map (·.1))[v]? = some p → InMesh m v := by
    intro v p h
    refine (h5 v).2 (.inl ?_)
    simpa using (List.getElem?_eq_some_iff.1 h).1
  refine ⟨N, m, h1, ?_, ?_, ?_⟩
  · intro a b c d pa pb pc pd ha hb hc hd
    rw [C71_solid h3 h2.consistent (hin ha) (hin hb) (hin hc) (hin hd) ((hat _ _).2 ha) ((hat _ _).2 hb) ((hat _ _).2 hc)
      ((hat _ _).2 hd)]
    refine and_congr Iff.rfl ⟨fun h v pv hv => h v pv (hin hv) ((hat _ _).2 hv), fun h v pv _ hv => h v pv ((hat _ _).1 hv)⟩
  · intro a b c pa pb pc ha hb hc hn
    rw [C71_ghost h3 h2.consistent hn (hin ha) (hin hb) (hin hc) ((hat _ _).2 ha) ((hat _ _).2 hb) ((hat _ _).2 hc)]
    exact ⟨fun h v pv hv => h v pv (hin hv) ((hat _ _).2 hv), fun h v pv _ hv => h v pv ((hat _ _).1 hv)⟩
  · rintro a b c d ⟨w, hw⟩ v hv
    obtain ⟨i1, i2, i3, i4⟩ := inMesh_tet hw
    simp only [List.mem_cons, List.not_mem_nil, or_false] at hv
    rcases hv with rfl | rfl | rfl | rfl
    exacts [(h5 _).1 i1, (h5 _).1 i2, (h5 _).1 i3, (h5 _).1 i4]

/-- C73: so the tets depend on the points only: not on the order of insertion, the order in which hash sets are
iterated, how ties are broken or the tolerance. -/
theorem C73_same {norm norm' : Pt K → K} {tol tol' : K} {sim sim'} {key : List (Pt K) → Pt K → H}
    {key' : List (Pt K) → Pt K → H'} {leH leH'} {order order' : List TId → List TId}
    (ho : ∀ l, (order l).Perm l) (ho' : ∀ l, (order' l).Perm l) (htol : 0 < tol) (htol' : 0 < tol')
    (hsim : ∀ a b c d, orient3d a b c d ≠ 0 → sim a b c d = decide (0 < orient3d a b c d))
    (hsim' : ∀ a b c d, orient3d a b c d ≠ 0 → sim' a b c d = decide (0 < orient3d a b c d)) {points : List (Pt K × V)}
    (h4 : 4 ≤ points.length) (hgp : GeneralPosition (points.map (·.1))) (hw : Wide norm tol (points.map (·.1)))
    (hw' : Wide norm' tol' (points.map (·.1))) (room : 13 * (points.length * (points.length + 1)) ≤ idMax)
    (nan nan' origin origin' : Pt K) (dt : T) (dt' : T') :
    ∃ N m m', (∀ fuel ≥ N,
        Mesh.delaunayFromVertices (exactGeo norm tol sim key leH) order fuel nan origin points dt = some m ∧
        Mesh.delaunayFromVertices (exactGeo norm' tol' sim' key' leH') order' fuel nan' origin' points dt' = some m') ∧
      ∀ q, HasTet m q ↔ HasTet m' q := by
  obtain ⟨N, m, h1, h2, h3, h5, -, h6⟩ := C73_build ho htol hsim h4 hgp hw room nan origin dt (key := key) (leH := leH)
  obtain ⟨N', m', k1, k2, k3, k5, -, k6⟩ := C73_build ho' htol' hsim' h4 hgp hw' room nan' origin' dt' (key := key') (leH := leH')
  refine ⟨max N N', m, m', fun fuel hf => ⟨h1 fuel (le_trans (le_max_left _ _) hf), k1 fuel (le_trans (le_max_right _ _) hf)⟩,
    C71_unique h3 h2.consistent k3 k2.consistent (fun v => (h5 v).trans (k5 v).symm) fun v p _ => ?_⟩
  have hmax : points.length ≤ idMax := by nlinarith
  rw [at_point h6 hmax, at_point k6 hmax]

/-- The sum of the absolute values of the coordinates. -/
def norm1 (p : Pt ℚ) : ℚ := |p.x| + |p.y| + |p.z|

/-- Five points. -/
def fivePoints : List (Pt ℚ × Nat) :=
  [(⟨0, 0, 0⟩, 10), (⟨1, 0, 0⟩, 11), (⟨0, 1, 0⟩, 12), (⟨0, 0, 1⟩, 13), (⟨1, 1, 1 / 2⟩, 14)]

theorem sphere_zero {a b c d e o : Pt K} {r2 : K} (h : OnSphere o r2 [a, b, c, d, e]) : inSphere a b c d e = 0 := by
  have ha := h a (by simp)
  have hb := h b (by simp)
  have hc := h c (by simp)
  have hd := h d (by simp)
  have he := h e (by simp)
  have key : ∀ x : Pt K, (x.sub o).norm2 = r2 → (x.sub e).norm2 = 2 * (o.sub e).dot (x.sub e) := by
    intro x hx
    rw [← he] at hx
    simp only [Pt.norm2, Pt.dot, Pt.sub] at hx ⊢
    linear_combination hx
  simp only [inSphere, key a ha, key b hb, key c hc, key d hd]
  simp only [Pt.dot, Pt.sub, Pt.cross]
  ring

/-- All hypotheses of `C73`: five points, the first four of which are the first tet. -/
example : 4 ≤ fivePoints.length ∧ GeneralPosition (fivePoints.map (·.1)) ∧ Wide norm1 (1 / 100) (fivePoints.map (·.1)) ∧
    13 * (fivePoints.length * (fivePoints.length + 1)) ≤ idMax := by
  have hn : (fivePoints.map (·.1)).Nodup := by decide +kernel
  have hsub : ∀ l : List (Pt ℚ), l.Subperm (fivePoints.map (·.1)) → (∀ p ∈ l, p ∈ fivePoints.map (·.1)) ∧ l.Nodup := by
    rintro l ⟨l', h1, h2⟩
    exact ⟨fun p hp => h2.subset (h1.mem_iff.2 hp), h1.nodup_iff.1 (hn.sublist h2)⟩
  have hvol : ∀ a ∈ fivePoints.map (·.1), ∀ b ∈ fivePoints.map (·.1), ∀ c ∈ fivePoints.map (·.1), ∀ d ∈ fivePoints.map (·.1), [a, b, c, d].Nodup →
      1 / 2 ≤ |orient3d a b c d| := by decide +kernel
  have harea : ∀ p ∈ fivePoints.map (·.1), ∀ q ∈ fivePoints.map (·.1), ∀ r ∈ fivePoints.map (·.1), ∀ s ∈ fivePoints.map (·.1),
      norm1 ((q.sub p).cross (s.sub r)) ≤ 50 := by decide +kernel
  have hedge : ∀ p ∈ fivePoints.map (·.1), ∀ q ∈ fivePoints.map (·.1), [p, q].Nodup → 0 < norm1 (q.sub p) := by decide +kernel
  have htri : ∀ a ∈ fivePoints.map (·.1), ∀ b ∈ fivePoints.map (·.1), ∀ c ∈ fivePoints.map (·.1), [a, b, c].Nodup →
      ∀ e ∈ [b.sub a, c.sub b, a.sub c], 1 / 100 * norm1 e ≤ norm1 ((b.sub a).cross (c.sub a)) := by decide +kernel
  refine ⟨by decide, ⟨?_, ?_⟩, ⟨?_, ?_, ?_⟩, by decide⟩
  · intro l hl hs hc
    obtain ⟨a, b, c, d, rfl⟩ := List.length_eq_four.1 hl
    obtain ⟨h1, h2⟩ := hsub _ hs
    have := hvol a (h1 _ (by simp)) b (h1 _ (by simp)) c (h1 _ (by simp)) d (h1 _ (by simp)) h2
    rw [coplanar_orient hc] at this
    norm_num at this
  · intro l hl hs o r2 hc
    have hp : l.Perm (fivePoints.map (·.1)) := hs.perm_of_length_le (by rw [hl]; decide)
    have := sphere_zero (a := ⟨0, 0, 0⟩) (b := ⟨1, 0, 0⟩) (c := ⟨0, 1, 0⟩) (d := ⟨0, 0, 1⟩) (e := ⟨1, 1, 1 / 2⟩)
      (o := o) (r2 := r2) (fun p hp' => hc p (hp.mem_iff.2 hp'))
    exact absurd this (by decide +kernel)
  · intro a b hs
    obtain ⟨h1, h2⟩ := hsub _ hs
    exact hedge a (h1 _ (by simp)) b (h1 _ (by simp)) h2
  · intro a b c hs
    obtain ⟨h1, h2⟩ := hsub _ hs
    exact htri a (h1 _ (by simp)) b (h1 _ (by simp)) c (h1 _ (by simp)) h2
  · intro a b c d hs p hp q hq r hr s hs'
    obtain ⟨h1, h2⟩ := hsub _ hs
    have v := hvol a (h1 _ (by simp)) b (h1 _ (by simp)) c (h1 _ (by simp)) d (h1 _ (by simp)) h2
    have w := harea p (h1 _ hp) q (h1 _ hq) r (h1 _ hr) s (h1 _ hs')
    linarith

end Tet
