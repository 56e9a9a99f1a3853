import Mathlib.Algebra.Order.Field.Rat
import Verif.Proofs.PlcBox
import Verif.Props.PlcValidate

/-!
# Properties of the geometry of validation: C55, C60, C61
-/

namespace Tet.Plc
open PlcSpec Spec

/-! ## C55 -/

section order
variable {K : Type} [LinearOrder K] {P : Type} {orient : K × K → K × K → K × K → Bool} {xy : P → K × K} {x : P}

/-- C55: the decision does not depend on the order of the rings, on the first vertex of each ring, and
on the direction of each ring, also for points on the boundary; and there is one for every face. -/
theorem C55_invariant {face face1 face2 : List (List P)} (h : ∀ r ∈ face, r ≠ [])
    (h1 : List.Forall₂ (fun r r' => ∃ n, r' = r.rotate n ∨ r' = r.reverse.rotate n) face face1)
    (h2 : face1.Perm face2) :
    pointInFace orient xy x face2 = pointInFace orient xy x face ∧ (pointInFace orient xy x face).isSome := by
  have h1e : ∀ r ∈ face1, r ≠ [] := by
    clear h2
    induction h1 with
    | nil => intro r hr; cases hr
    | cons h3 _ ih =>
      intro r hr
      rcases List.mem_cons.1 hr with rfl | hr
      · have := h _ (List.mem_cons_self)
        obtain ⟨n, rfl | rfl⟩ := h3 <;> simpa using this
      · exact ih (fun s hs => h s (by simp [hs])) r hr
  rw [pointInFace_eq xy x h, pointInFace_eq xy x fun r hr => h1e r (h2.mem_iff.2 hr),
    ← xorAll_perm (h2.map fun r => odd orient (xy x) (r.map xy))]
  refine ⟨?_, rfl⟩
  congr 2
  clear h2 h h1e
  induction h1 with
  | nil => rfl
  | cons h3 _ ih =>
    rw [List.map_cons, List.map_cons, ih]
    congr 1
    obtain ⟨n, rfl | rfl⟩ := h3
    · rw [List.map_rotate, odd_rotate]
    · rw [List.map_rotate, odd_rotate, List.map_reverse, odd_reverse]

/-- C55: the decision is the parity of the number of rings that contain the point, and for each ring it
is the parity of the number of triangles that contain it, among those that join any fixed point to
the edges of the ring. -/
theorem C55_fan (o : List P → P) {face : List (List P)} (h : ∀ r ∈ face, r ≠ []) :
    pointInFace orient xy x face = some (decide (((face.map fun r => ((around r).countP fun e =>
      pointInFace orient xy x [[o r, e.1, e.2]] = some true)).sum) % 2 = 1)) := by
  rw [pointInFace_eq xy x h]
  have hc : ∀ {A : Type} (f : A → Bool) (l : List A), xorAll (l.map f) = decide (l.countP f % 2 = 1) := by
    intro A f l
    rw [← sum_toNat]
    have : ((l.map f).map Bool.toNat).sum = l.countP f := by
      induction l with
      | nil => rfl
      | cons a l ih =>
        rw [List.map_cons, List.map_cons, List.sum_cons, ih, List.countP_cons, Nat.add_comm]
        cases f a <;> rfl
    rw [this]
    rcases Nat.mod_two_eq_zero_or_one (l.countP f) with h | h <;> simp [h]
  have hr : ∀ r : List P, odd orient (xy x) (r.map xy) =
      decide ((around r).countP (fun e => pointInFace orient xy x [[o r, e.1, e.2]] = some true) % 2 = 1) := by
    intro r
    rw [odd_fan _ (xy (o r)), ← hc]
    have : around (r.map xy) = (around r).map fun e => (xy e.1, xy e.2) := by
      rw [around_eq, around_eq, ← List.map_rotate, List.zip_map]
      rfl
    rw [this, List.map_map]
    congr 1
    apply List.map_congr_left
    intro e _
    rw [pointInFace_eq xy x (by simp)]
    simp
  congr 1
  induction face with
  | nil => rfl
  | cons r face ih =>
    rw [List.map_cons, xorAll_cons, ih fun s hs => h s (by simp [hs]), hr, List.map_cons, List.sum_cons]
    generalize (List.countP _ _) = a
    generalize List.sum (α := Nat) _ = b
    rcases Nat.mod_two_eq_zero_or_one a with h1 | h1 <;> rcases Nat.mod_two_eq_zero_or_one b with h2 | h2 <;>
      simp [h1, h2, Nat.add_mod]

end order

section field
variable {K : Type} [Field K] [LinearOrder K] [IsStrictOrderedRing K] {P : Type}
  {orient : K × K → K × K → K × K → Bool} {xy : P → K × K} {x : P}

/-- C55: for a triangle, a point strictly inside is found to be in it, and a point found to be in it
is not outside. -/
theorem C55_triangle (ho : IsOrient orient) {a b c : P} (hd : area (xy a) (xy b) (xy c) ≠ 0) :
    (Inside (xy a) (xy b) (xy c) (xy x) → pointInFace orient xy x [[a, b, c]] = some true) ∧
    (¬ InHull [xy a, xy b, xy c] (xy x) → pointInFace orient xy x [[a, b, c]] = some false) := by
  rw [pointInFace_eq xy x (by simp)]
  simp only [List.map_cons, List.map_nil, xorAll_cons, xorAll_nil, Bool.xor_false, Option.some.injEq]
  refine ⟨tri_inside ho hd, ?_⟩
  intro h
  by_contra hc
  exact h (tri_hull ho (by simpa using hc))

/-- C55: a point found to be in a face is, seen along the normal, in the convex hull of one of its
rings. -/
theorem C55_hull (ho : IsOrient orient) {face : List (List P)} (h : ∀ r ∈ face, r ≠ [])
    (hx : pointInFace orient xy x face = some true) : ∃ r ∈ face, InHull (r.map xy) (xy x) := by
  rw [pointInFace_eq xy x h, Option.some.injEq] at hx
  obtain ⟨r, hr, h1⟩ := List.mem_map.1 (xorAll_true hx)
  exact ⟨r, hr, odd_hull ho h1⟩

end field

/-- An orientation test, ties being positive. -/
def Example.orient (a b c : ℚ × ℚ) : Bool := 0 ≤ area a b c

theorem Example.isOrient : IsOrient Example.orient := by
  intro a b c h
  unfold Example.orient
  rw [decide_eq_decide]
  exact ⟨fun h' => lt_of_le_of_ne h' h.symm, le_of_lt⟩

/-- A square with a square hole: a point in the hole, one in between, one outside. -/
example : (pointInFace Example.orient id (2, 2) [[(0, 0), (4, 0), (4, 4), (0, 4)], [(1, 1), (1, 3), (3, 3), (3, 1)]],
    pointInFace Example.orient id (2, 7 / 2) [[(0, 0), (4, 0), (4, 4), (0, 4)], [(1, 1), (1, 3), (3, 3), (3, 1)]],
    pointInFace Example.orient id (-2, 2) [[(0, 0), (4, 0), (4, 4), (0, 4)], [(1, 1), (1, 3), (3, 3), (3, 1)]]) =
    (some false, some true, some false) := by decide +kernel

example : Inside (0, 0) (4, 0) (0, 4) ((1, 1) : ℚ × ℚ) :=
  ⟨1 / 2, 1 / 4, 1 / 4, by norm_num, by norm_num, by norm_num, by norm_num, by norm_num [comb2]⟩

/-! ## C60 -/

section boxes
variable {K : Type} [Field K] [LinearOrder K] [IsStrictOrderedRing K] {V E F D : Type}
  {g : Geom (Pt K) (Plane K)} {d : E} {ops : List (Op (Pt K) V E F)} {p : Plc (Pt K) (Plane K) V E F}
  {t : Tests (Pt K) (Plane K) D} {tol : K} {u w : Plane K → Pt K} {orient : K × K → K × K → K × K → Bool}

/-- C60: in exact arithmetic, if no face is twisted, the boxes of any two elements that are too close
intersect. -/
theorem C60_boxes {c : Contents (Pt K) V E F} (ht : Exact tol u w orient t) (h0 : 0 < tol)
    (hr : ∀ x ∈ c.faces, ∀ r ∈ x.1, r ≠ [] ∧ ∀ v ∈ r, v < c.vertices.length)
    (hf : ∀ x ∈ c.faces, Orthonormal (u (c.plane g x.1)) (w (c.plane g x.1)) (c.plane g x.1).normal)
    (htw : c.twisted g t = []) {x y : Element} (hn : c.near g t x y ≠ none) :
    (aabbs tol).meet (c.box (aabbs tol) x) (c.box (aabbs tol) y) := by
  obtain ⟨dist, hn⟩ := Option.ne_none_iff_exists'.1 hn
  have hlt : ∀ a : K, a < tol * tol → a ≤ (2 * tol) * (2 * tol) := by
    intro a ha
    have := mul_pos h0 h0
    linarith
  have h0' := h0.le
  change (aabb tol (c.points x)).intersects (aabb tol (c.points y))
  -- the points of a face are near its plane
  have hplane : ∀ z ∈ c.faces, ∀ v ∈ z.1.flatten.filterMap c.pos,
      |(v.sub (c.plane g z.1).center).dot (c.plane g z.1).normal| ≤ tol / 2 := by
    rintro ⟨rings, value⟩ hz v hv
    obtain ⟨i, hi⟩ := List.mem_iff_getElem?.1 hz
    obtain ⟨a, ha, hav⟩ := List.mem_filterMap.1 hv
    by_contra hc
    obtain ⟨dd, hdd⟩ := Option.isSome_iff_exists.1 ((ht.twist (c.plane g rings) v).2 (not_le.1 hc).le)
    have hm := ((C53_lists g t c).2.1 i (c.offPlane g t rings)).2 ⟨rings, value, hi, ?_, rfl⟩
    · rw [htw] at hm
      cases hm
    · refine List.ne_nil_of_mem (a := (a, dd)) (List.mem_filterMap.2 ⟨a, ha, ?_⟩)
      rw [hav, Option.bind_some, hdd]
      rfl
  -- a point in a face
  have hface : ∀ {f : Nat} {rings : List (List Nat)} {value : F} {q : Pt K},
      c.faces[f]? = some (rings, value) →
      t.inFace (c.plane g rings) q (rings.map fun r => r.filterMap c.pos) →
      |(q.sub (c.plane g rings).center).dot (c.plane g rings).normal| ≤ tol →
      ∃ h, Within (c.points (.face f)) h ∧ (q.sub h).norm2 ≤ (2 * tol) * (2 * tol) := by
    intro f rings value q hfr hin hq
    have hmem := List.mem_of_getElem? hfr
    rw [ht.inFace] at hin
    have hne : ∀ r ∈ rings.map fun r => r.filterMap c.pos, r ≠ [] := by
      intro r hr'
      obtain ⟨s, hs, rfl⟩ := List.mem_map.1 hr'
      obtain ⟨h1, h2⟩ := hr _ hmem s hs
      obtain ⟨v, hv⟩ := List.exists_mem_of_ne_nil s h1
      have : (c.pos v).isSome := by simp [Contents.pos, h2 v hv]
      obtain ⟨z, hz⟩ := Option.isSome_iff_exists.1 this
      exact List.ne_nil_of_mem (List.mem_filterMap.2 ⟨v, hv, hz⟩)
    obtain ⟨r, hr', hh⟩ := C55_hull (x := q) ht.orient hne (by
      cases hc : pointInFace orient (fun y => ((y.sub (c.plane g rings).center).dot (u (c.plane g rings)),
          (y.sub (c.plane g rings).center).dot (w (c.plane g rings)))) q (rings.map fun r => r.filterMap c.pos) with
      | none => rw [hc] at hin; cases hin
      | some b => rw [hc] at hin; exact congrArg some hin)
    have hsub : ∀ y ∈ r, y ∈ rings.flatten.filterMap c.pos := by
      intro y hy
      obtain ⟨s, hs, rfl⟩ := List.mem_map.1 hr'
      obtain ⟨v, hv, hvy⟩ := List.mem_filterMap.1 hy
      exact List.mem_filterMap.2 ⟨v, List.mem_flatten.2 ⟨s, hs, hv⟩, hvy⟩
    have hpts : c.points (.face f) = rings.flatten.filterMap c.pos := by
      simp [Contents.points, Contents.corners, hfr]
    have hh' : InHull ((rings.flatten.filterMap c.pos).map fun y =>
        ((y.sub (c.plane g rings).center).dot (u (c.plane g rings)),
          (y.sub (c.plane g rings).center).dot (w (c.plane g rings))))
        ((q.sub (c.plane g rings).center).dot (u (c.plane g rings)),
          (q.sub (c.plane g rings).center).dot (w (c.plane g rings))) := by
      refine hh.mono ?_
      intro z hz
      obtain ⟨y, hy, rfl⟩ := List.mem_map.1 hz
      exact List.mem_map.2 ⟨y, hsub y hy, rfl⟩
    obtain ⟨h, h1, h2⟩ := face_close (hf _ hmem) hh' hq (hplane _ hmem)
    refine ⟨h, by rw [hpts]; exact h1, h2.trans ?_⟩
    refine mul_self_le_mul_self ?_ ?_ <;> linarith
  cases x with
  | vertex v =>
    cases y with
    | vertex v' =>
      simp only [Contents.near, Option.bind_eq_bind, Option.bind_eq_some_iff] at hn
      obtain ⟨a, ha, b, hb, hn⟩ := hn
      have := (ht.vv a b).1 (by rw [hn]; rfl)
      simp only [Contents.points, Contents.corners, List.filterMap_cons, ha, hb, List.filterMap_nil]
      exact meet_of_norm h0' (within_mem (by simp)) (within_mem (by simp)) (hlt _ this)
    | edge e =>
      simp only [Contents.near, Option.bind_eq_bind, Option.bind_eq_some_iff] at hn
      obtain ⟨⟨⟨i, j⟩, value⟩, he, a, ha, b, hb, b', hb', hn⟩ := hn
      obtain ⟨s, s0, s1, hs⟩ := (ht.ve a (b, b')).1 (by rw [hn]; rfl)
      simp only [Contents.points, Contents.corners, List.filterMap_cons, ha, hb, hb', he, List.filterMap_nil,
        Option.map_some, Option.getD_some]
      exact meet_of_norm h0' (within_mem (by simp)) (within_along s0 s1) (hlt _ hs)
    | face f =>
      simp only [Contents.near, Option.bind_eq_bind, Option.bind_eq_some_iff] at hn
      obtain ⟨⟨rings, value⟩, hfr, a, ha, dd, hdd, a', ha', _, hg, -⟩ := hn
      rw [ha] at ha'
      cases ha'
      obtain ⟨h, h1, h2⟩ := hface hfr (by
          by_contra hc
          simp [hc] at hg) ((ht.vf _ a).1 (by rw [hdd]; rfl)).le
      refine meet_of_norm h0' (h := a) ?_ h1 h2
      refine within_mem ?_
      simp [Contents.points, Contents.corners, ha]
  | edge e =>
    cases y with
    | vertex v' => simp [Contents.near] at hn
    | edge e' =>
      simp only [Contents.near, Option.bind_eq_bind, Option.bind_eq_some_iff] at hn
      obtain ⟨⟨⟨i, j⟩, value⟩, he, ⟨⟨i', j'⟩, value'⟩, he', a, ha, a', ha', b, hb, b', hb', hn⟩ := hn
      obtain ⟨s, s', s0, s1, s0', s1', hs⟩ := (ht.ee (a, a') (b, b')).1 (by rw [hn]; rfl)
      simp only [Contents.points, Contents.corners, List.filterMap_cons, ha, hb, ha', hb', he, he', List.filterMap_nil,
        Option.map_some, Option.getD_some]
      exact meet_of_norm h0' (within_along s0 s1) (within_along s0' s1') (hlt _ hs)
    | face f =>
      simp only [Contents.near, Option.bind_eq_bind, Option.bind_eq_some_iff] at hn
      obtain ⟨⟨rings, value⟩, hfr, ⟨⟨i, j⟩, value'⟩, he, a, ha, a', ha', q, hq, _, hg, -⟩ := hn
      obtain ⟨s, s0, s1, rfl, hz⟩ := ht.ef _ _ _ hq
      obtain ⟨h, h1, h2⟩ := hface (q := along (a, a') s) hfr (by
          by_contra hc
          simp [hc] at hg) (by rw [hz, abs_zero]; exact h0')
      refine meet_of_norm h0' ?_ h1 h2
      simp only [Contents.points, Contents.corners, List.filterMap_cons, ha, ha', he, List.filterMap_nil,
        Option.map_some, Option.getD_some]
      exact within_along s0 s1
  | face f => cases y <;> simp [Contents.near] at hn

/-- C60: so in exact arithmetic validation succeeds exactly if every face has a ring of at least three
vertices, every vertex of a face is nearer to its plane than half the tolerance, and no two elements
without a common vertex are too close. -/
theorem C60_ok (h : Calls g (new d) ops p) (ht : Exact tol u w orient t) (h0 : 0 < tol)
    (hf : ∀ x ∈ (contents d ops).faces, Orthonormal (u ((contents d ops).plane g x.1))
      (w ((contents d ops).plane g x.1)) ((contents d ops).plane g x.1).normal)
    {bvt : List (Element × Aabb K) → List ((Element × Aabb K) × (Element × Aabb K))}
    (hb : Broad (aabbs tol) bvt) :
    p.validate t (aabbs tol) bvt = some (.ok ()) ↔
      (∀ x ∈ (contents d ops).faces, ∃ r ∈ x.1, 3 ≤ r.length) ∧
      (∀ x ∈ (contents d ops).faces, ∀ r ∈ x.1, ∀ v ∈ r, ∀ pos, (contents d ops).pos v = some pos →
        |(pos.sub ((contents d ops).plane g x.1).center).dot ((contents d ops).plane g x.1).normal| < tol / 2) ∧
      (∀ x ∈ (contents d ops).elements, ∀ y ∈ (contents d ops).elements, (contents d ops).before x y →
        (∀ v ∈ (contents d ops).corners x, v ∉ (contents d ops).corners y) →
        (contents d ops).near g t x y = none) := by
  have etw : ∀ q x, t.twist q x = none ↔ |(x.sub q.center).dot q.normal| < tol / 2 := by
    intro q x
    rw [← Option.not_isSome_iff_eq_none, ht.twist, not_le]
  rw [C53_ok h hb]
  simp only [etw]
  refine and_congr_right fun h1 => and_congr_right fun h2 => ?_
  constructor
  · intro h3 x hx y hy h4 h5
    by_contra hc
    refine hc (h3 x hx y hy h4 h5 ?_)
    refine C60_boxes ht h0 ?_ hf ?_ hc
    · intro x hx r hr
      exact ((rep_contents h).allowed x hx).2 r hr
    · rw [List.eq_nil_iff_forall_not_mem]
      rintro ⟨f, l⟩ hfl
      obtain ⟨rings, value, k1, k2, rfl⟩ := ((C53_lists g t _).2.1 f l).1 hfl
      apply k2
      rw [List.filterMap_eq_nil_iff]
      intro v hv
      obtain ⟨r, hr, hvr⟩ := List.mem_flatten.1 hv
      cases hpos : (contents d ops).pos v with
      | none => rfl
      | some pos =>
        rw [Option.bind_some, (etw _ _).2 (h2 _ (List.mem_of_getElem? k1) r hr v hvr pos hpos)]
        rfl
  · intro h3 x hx y hy h4 h5 _
    exact h3 x hx y hy h4 h5

end boxes

/-! ## C61 -/

section flat
variable {K : Type} [Field K]

theorem sumPt_dot (m : Pt K) (l : List (Pt K)) : (sumPt l).dot m = (l.map fun x => x.dot m).sum := by
  induction l with
  | nil => simp [sumPt, Pt.dot]
  | cons x l ih =>
    have : (sumPt (x :: l)).dot m = x.dot m + (sumPt l).dot m := by
      simp only [sumPt, List.foldr_cons, Pt.add, Pt.dot]; ring
    rw [this, ih]
    simp

/-- Three vectors perpendicular to a nonzero vector. -/
theorem det_zero {m a b c : Pt K} (hm : m ≠ ⟨0, 0, 0⟩) (ha : a.dot m = 0) (hb : b.dot m = 0) (hc : c.dot m = 0) :
    a.dot (b.cross c) = 0 := by
  have ex : a.dot (b.cross c) * m.x = a.dot m * (b.cross c).x + b.dot m * (c.cross a).x + c.dot m * (a.cross b).x := by
    simp only [Pt.dot, Pt.cross]; ring
  have ey : a.dot (b.cross c) * m.y = a.dot m * (b.cross c).y + b.dot m * (c.cross a).y + c.dot m * (a.cross b).y := by
    simp only [Pt.dot, Pt.cross]; ring
  have ez : a.dot (b.cross c) * m.z = a.dot m * (b.cross c).z + b.dot m * (c.cross a).z + c.dot m * (a.cross b).z := by
    simp only [Pt.dot, Pt.cross]; ring
  simp only [ha, hb, hc, zero_mul, add_zero, mul_eq_zero] at ex ey ez
  by_contra h0
  exact hm (Pt.ext (ex.resolve_left h0) (ey.resolve_left h0) (ez.resolve_left h0))

variable [LinearOrder K] [IsStrictOrderedRing K]

/-- C61: the plane of a face with points in a plane contains all of them. -/
theorem C61_plane (norm : Pt K → K) {points : List (Pt K)} {edges : List (Pt K × Pt K)} (h : Coplanar points)
    (he : ∀ e ∈ edges, e.1 ∈ points ∧ e.2 ∈ points) {x : Pt K} (hx : x ∈ points) :
    (x.sub (newell norm points edges).center).dot (newell norm points edges).normal = 0 := by
  obtain ⟨m, hm, k, hk⟩ := h
  have hk' : ∀ p ∈ points, p.dot m = k := by
    intro p hp
    rw [← hk p hp]
    simp only [Pt.dot]; ring
  simp only [newell]
  generalize hc : Pt.smul (1 / (points.length : K)) (sumPt points) = c
  have hcm : c.dot m = k := by
    rw [← hc]
    have e1 : (Pt.smul (1 / (points.length : K)) (sumPt points)).dot m = 1 / (points.length : K) * (sumPt points).dot m := by
      simp only [Pt.smul, Pt.dot]; ring
    have e2 : (points.map fun x => x.dot m).sum = points.length * k := by
      rw [List.map_congr_left (g := fun _ => k) hk']
      simp
    rw [e1, sumPt_dot, e2]
    have : (points.length : K) ≠ 0 := by
      have : 0 < points.length := List.length_pos_of_mem hx
      exact_mod_cast this.ne'
    field_simp
  have hsub : ∀ p ∈ points, (p.sub c).dot m = 0 := by
    intro p hp
    have : (p.sub c).dot m = p.dot m - c.dot m := by simp only [Pt.sub, Pt.dot]; ring
    rw [this, hk' p hp, hcm, sub_self]
  have e1 : ∀ (s : K) (y : Pt K), (x.sub c).dot (Pt.smul s y) = s * y.dot (x.sub c) := by
    intro s y; simp only [Pt.smul, Pt.dot]; ring
  rw [e1, sumPt_dot]
  have : (((edges.map fun e => (e.1.sub c).cross (e.2.sub c))).map fun y => y.dot (x.sub c)) =
      edges.map fun _ => (0 : K) := by
    rw [List.map_map]
    apply List.map_congr_left
    intro e hee
    obtain ⟨h1, h2⟩ := he e hee
    have := det_zero hm (hsub x hx) (hsub _ h1) (hsub _ h2)
    rw [← this]
    simp only [Function.comp, Pt.dot]; ring
  rw [this]
  simp

/-- C61: in exact arithmetic a `Plc` whose faces are all flat is never reported to have a twisted
face, whatever the positive tolerance. -/
theorem C61_flat {V E F D : Type} {norm : Pt K → K} {d : E} {ops : List (Op (Pt K) V E F)}
    {p : Plc (Pt K) (Plane K) V E F} {t : Tests (Pt K) (Plane K) D} {tol : K} {u w : Plane K → Pt K}
    {orient : K × K → K × K → K × K → Bool} {B : Type} {b : Boxes (Pt K) B}
    {bvt : List (Element × B) → List ((Element × B) × (Element × B))}
    (h : Calls (newellGeom norm) (new d) ops p) (ht : Exact tol u w orient t) (h0 : 0 < tol) (hb : Broad b bvt)
    (hf : ∀ x ∈ (contents d ops).faces, Coplanar (x.1.flatten.filterMap (contents d ops).pos))
    (l : List (Nat × List (Nat × D))) : p.validate t b bvt ≠ some (.error (.twistedFace l)) := by
  intro hv
  obtain ⟨r, hr, -, h2, -⟩ := C53_order (t := t) h hb
  rw [hr, Option.some.injEq] at hv
  obtain ⟨-, hl, hne⟩ := (h2 l).1 hv
  obtain ⟨⟨f, fails⟩, hmem⟩ := List.exists_mem_of_ne_nil l hne
  rw [hl] at hmem
  obtain ⟨rings, value, k1, k2, rfl⟩ := ((C53_lists (newellGeom norm) t _).2.1 f fails).1 hmem
  apply k2
  rw [List.filterMap_eq_nil_iff]
  intro v hv
  cases hpos : (contents d ops).pos v with
  | none => rfl
  | some pos =>
    have hz := C61_plane norm (hf _ (List.mem_of_getElem? k1)) (edges := (rings.flatMap cyc).filterMap fun vs =>
      ((contents d ops).pos vs.1).bind fun x => ((contents d ops).pos vs.2).map fun y => (x, y)) (by
        rintro ⟨a, b⟩ he
        obtain ⟨vs, hvs, h3⟩ := List.mem_filterMap.1 he
        obtain ⟨r', hr', hvr⟩ := List.mem_flatMap.1 hvs
        obtain ⟨a', ha', h3⟩ := Option.bind_eq_some_iff.1 h3
        obtain ⟨b', hb', h3⟩ := Option.map_eq_some_iff.1 h3
        cases h3
        obtain ⟨m1, m2⟩ := mem_cyc hvr
        exact ⟨List.mem_filterMap.2 ⟨vs.1, List.mem_flatten.2 ⟨r', hr', m1⟩, ha'⟩,
          List.mem_filterMap.2 ⟨vs.2, List.mem_flatten.2 ⟨r', hr', m2⟩, hb'⟩⟩)
      (List.mem_filterMap.2 ⟨v, hv, hpos⟩)
    have hn : t.twist ((contents d ops).plane (newellGeom norm) rings) pos = none := by
      rw [← Option.not_isSome_iff_eq_none, ht.twist]
      have : (contents d ops).plane (newellGeom norm) rings = newell norm (rings.flatten.filterMap (contents d ops).pos)
        ((rings.flatMap cyc).filterMap fun vs =>
          ((contents d ops).pos vs.1).bind fun x => ((contents d ops).pos vs.2).map fun y => (x, y)) := rfl
      rw [this, hz, abs_zero, not_le]
      linarith
    rw [Option.bind_some, hn]
    rfl

end flat

/-! ## Examples: a square and a point above it -/

namespace Example

open Classical in
/-- Exact tests, with a tolerance. -/
noncomputable def exact (tol : ℚ) (u w : Plane ℚ → Pt ℚ) : Tests (Pt ℚ) (Plane ℚ) Unit where
  twist q x := if tol / 2 ≤ |(x.sub q.center).dot q.normal| then some () else none
  vv x y := if (x.sub y).norm2 < tol * tol then some () else none
  ve x e := if ∃ s, 0 ≤ s ∧ s ≤ 1 ∧ (x.sub (along e s)).norm2 < tol * tol then some () else none
  ee e e' := if ∃ s s', 0 ≤ s ∧ s ≤ 1 ∧ 0 ≤ s' ∧ s' ≤ 1 ∧ ((along e s).sub (along e' s')).norm2 < tol * tol
    then some () else none
  vf q x := if |(x.sub q.center).dot q.normal| < tol then some () else none
  ef q e := if h : ∃ s, 0 ≤ s ∧ s ≤ 1 ∧ ((along e s).sub q.center).dot q.normal = 0
    then some (along e h.choose) else none
  inFace q x l := (pointInFace orient
    (fun y => ((y.sub q.center).dot (u q), (y.sub q.center).dot (w q))) x l).getD false
  zero := ()

theorem exact_exact (tol : ℚ) (u w : Plane ℚ → Pt ℚ) : Exact tol u w orient (exact tol u w) where
  twist q x := by simp [exact]
  vv x y := by simp [exact]
  ve x e := by simp only [exact]; split <;> simp_all
  ee e e' := by simp only [exact]; split <;> simp_all
  vf q x := by simp [exact]
  ef q e x h := by
    simp only [exact] at h
    split at h
    · rename_i h'
      obtain rfl := Option.some.inj h
      exact ⟨_, h'.choose_spec.1, h'.choose_spec.2.1, rfl, h'.choose_spec.2.2⟩
    · cases h
  inFace q x l := rfl
  orient := isOrient

/-- Right for the vector along which the square is seen. -/
def geom' : Geom (Pt ℚ) (Plane ℚ) := newellGeom fun v => |v.z|

def square : List (Op (Pt ℚ) Unit Nat Unit) :=
  [.vertex ⟨0, 0, 1⟩ (), .vertex ⟨4, 0, 1⟩ (), .vertex ⟨4, 4, 1⟩ (), .vertex ⟨0, 4, 1⟩ (),
    .vertex ⟨1, 2, 11 / 10⟩ (), .face [[0, 1, 2, 3]] ()]

theorem square_calls : ∃ p, Calls geom' (new 0) square p := by
  have h : ((((((call geom' (new 0) (Op.vertex (E := Nat) (F := Unit) ⟨0, 0, 1⟩ ())).bind fun x =>
      call geom' x.1 (.vertex ⟨4, 0, 1⟩ ())).bind fun x =>
      call geom' x.1 (.vertex ⟨4, 4, 1⟩ ())).bind fun x =>
      call geom' x.1 (.vertex ⟨0, 4, 1⟩ ())).bind fun x =>
      call geom' x.1 (.vertex ⟨1, 2, 11 / 10⟩ ())).bind fun x =>
      call geom' x.1 (.face [[0, 1, 2, 3]] ())).isSome := by decide +kernel
  obtain ⟨x, hx⟩ := Option.isSome_iff_exists.1 h
  obtain ⟨x5, h5, h6⟩ := Option.bind_eq_some_iff.1 hx
  obtain ⟨x4, h4, h5⟩ := Option.bind_eq_some_iff.1 h5
  obtain ⟨x3, h3, h4⟩ := Option.bind_eq_some_iff.1 h4
  obtain ⟨x2, h2, h3⟩ := Option.bind_eq_some_iff.1 h3
  obtain ⟨x1, h1, h2⟩ := Option.bind_eq_some_iff.1 h2
  exact ⟨x.1, (((((Calls.nil.snoc h1).snoc h2).snoc h3).snoc h4).snoc h5).snoc h6⟩

theorem square_faces : (contents 0 square).faces = [([[0, 1, 2, 3]], ())] := rfl

theorem square_plane : (contents 0 square).plane geom' [[0, 1, 2, 3]] = ⟨⟨2, 2, 1⟩, ⟨0, 0, 1⟩⟩ := by
  decide +kernel

/-- The hypotheses of C60 and C61. -/
example : (∃ p, Calls geom' (new 0) square p) ∧ (0 : ℚ) < 1 / 5 ∧
    Exact (1 / 5) (fun _ => ⟨1, 0, 0⟩) (fun _ => ⟨0, 1, 0⟩) orient (exact (1 / 5) (fun _ => ⟨1, 0, 0⟩) fun _ => ⟨0, 1, 0⟩) ∧
    Broad (aabbs (1 / 5 : ℚ)) bvt ∧
    (∀ x ∈ (contents 0 square).faces, Coplanar (x.1.flatten.filterMap (contents 0 square).pos)) ∧
    ∀ x ∈ (contents 0 square).faces, Orthonormal (⟨1, 0, 0⟩ : Pt ℚ) ⟨0, 1, 0⟩ ((contents 0 square).plane geom' x.1).normal := by
  refine ⟨square_calls, by norm_num, exact_exact _ _ _, broad _, ?_, ?_⟩
  · rw [square_faces]
    intro x hx
    rw [List.mem_singleton.1 hx]
    refine ⟨⟨0, 0, 1⟩, by simp, 1, ?_⟩
    intro p hp
    have : p ∈ [(⟨0, 0, 1⟩ : Pt ℚ), ⟨4, 0, 1⟩, ⟨4, 4, 1⟩, ⟨0, 4, 1⟩] := hp
    simp only [List.mem_cons, List.not_mem_nil, or_false] at this
    rcases this with rfl | rfl | rfl | rfl <;> norm_num [Pt.dot]
  · rw [square_faces]
    intro x hx
    rw [List.mem_singleton.1 hx, square_plane]
    norm_num [Orthonormal, Pt.dot]

/-- The point above the square is too close to it. -/
example : (contents 0 square).near geom' (exact (1 / 5) (fun _ => ⟨1, 0, 0⟩) fun _ => ⟨0, 1, 0⟩)
    (.vertex 4) (.face 0) ≠ none := by
  have h1 : (contents 0 square).faces[0]? = some ([[0, 1, 2, 3]], ()) := rfl
  have h2 : (contents 0 square).pos 4 = some ⟨1, 2, 11 / 10⟩ := rfl
  have h3 : |((⟨1, 2, 11 / 10⟩ : Pt ℚ).sub ⟨2, 2, 1⟩).dot ⟨0, 0, 1⟩| < 1 / 5 := by
    decide +kernel
  have h4 : (pointInFace orient (fun y : Pt ℚ => ((y.sub ⟨2, 2, 1⟩).dot ⟨1, 0, 0⟩, (y.sub ⟨2, 2, 1⟩).dot ⟨0, 1, 0⟩))
      ⟨1, 2, 11 / 10⟩ [[⟨0, 0, 1⟩, ⟨4, 0, 1⟩, ⟨4, 4, 1⟩, ⟨0, 4, 1⟩]]).getD false = true := by decide +kernel
  have h5 : ([[0, 1, 2, 3]].map fun r => r.filterMap (contents 0 square).pos) =
      [[⟨0, 0, 1⟩, ⟨4, 0, 1⟩, ⟨4, 4, 1⟩, ⟨0, 4, 1⟩]] := rfl
  simp only [Contents.near, h1, h2, square_plane, exact, Option.bind_eq_bind, Option.bind_some, h5, h4, if_pos h3]
  simp [guard]

end Example

end Tet.Plc
