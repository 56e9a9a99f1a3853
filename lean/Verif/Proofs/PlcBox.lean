import Verif.Proofs.PlcGeo

/-!
# Bounding boxes
-/

namespace Tet.Plc
open PlcSpec Spec
variable {K : Type} [Field K] [LinearOrder K] [IsStrictOrderedRing K]

theorem least_le {l : List K} {x : K} (h : x ∈ l) : least l ≤ x := by
  have key : ∀ (l : List K) (a : K), l.foldl min a ≤ a ∧ ∀ x ∈ l, l.foldl min a ≤ x := by
    intro l
    induction l with
    | nil => intro a; simp
    | cons b l ih =>
      intro a
      obtain ⟨h1, h2⟩ := ih (min a b)
      rw [List.foldl_cons]
      refine ⟨h1.trans (min_le_left _ _), ?_⟩
      intro x hx
      rcases List.mem_cons.1 hx with rfl | hx
      · exact h1.trans (min_le_right _ _)
      · exact h2 x hx
  cases l with
  | nil => cases h
  | cons a l =>
    rcases List.mem_cons.1 h with rfl | h
    · exact (key l _).1
    · exact (key l a).2 x h

theorem le_greatest {l : List K} {x : K} (h : x ∈ l) : x ≤ greatest l := by
  have key : ∀ (l : List K) (a : K), a ≤ l.foldl max a ∧ ∀ x ∈ l, x ≤ l.foldl max a := by
    intro l
    induction l with
    | nil => intro a; simp
    | cons b l ih =>
      intro a
      obtain ⟨h1, h2⟩ := ih (max a b)
      rw [List.foldl_cons]
      refine ⟨(le_max_left _ _).trans h1, ?_⟩
      intro x hx
      rcases List.mem_cons.1 hx with rfl | hx
      · exact (le_max_right _ _).trans h1
      · exact h2 x hx
  cases l with
  | nil => cases h
  | cons a l =>
    rcases List.mem_cons.1 h with rfl | h
    · exact (key l _).1
    · exact (key l a).2 x h

/-- The point is in the box of the points, before widening. -/
def Within (l : List (Pt K)) (h : Pt K) : Prop :=
  (least (l.map (·.x)) ≤ h.x ∧ h.x ≤ greatest (l.map (·.x))) ∧
  (least (l.map (·.y)) ≤ h.y ∧ h.y ≤ greatest (l.map (·.y))) ∧
  (least (l.map (·.z)) ≤ h.z ∧ h.z ≤ greatest (l.map (·.z)))

theorem within_mem {l : List (Pt K)} {h : Pt K} (hm : h ∈ l) : Within l h :=
  ⟨⟨least_le (List.mem_map.2 ⟨h, hm, rfl⟩), le_greatest (List.mem_map.2 ⟨h, hm, rfl⟩)⟩,
    ⟨least_le (List.mem_map.2 ⟨h, hm, rfl⟩), le_greatest (List.mem_map.2 ⟨h, hm, rfl⟩)⟩,
    ⟨least_le (List.mem_map.2 ⟨h, hm, rfl⟩), le_greatest (List.mem_map.2 ⟨h, hm, rfl⟩)⟩⟩

/-- A weighted mean of numbers between two bounds. -/
theorem mean_between {A : Type} (f : A → K) {a b : K} : ∀ {w : List (K × A)}, (∀ x ∈ w, 0 ≤ x.1 ∧ a ≤ f x.2 ∧ f x.2 ≤ b) →
    (w.map Prod.fst).sum * a ≤ (w.map fun x => x.1 * f x.2).sum ∧
    (w.map fun x => x.1 * f x.2).sum ≤ (w.map Prod.fst).sum * b
  | [], _ => by simp
  | x :: w, h => by
    obtain ⟨h1, h2⟩ := mean_between f (w := w) fun y hy => h y (by simp [hy])
    obtain ⟨k, ka, kb⟩ := h x (by simp)
    simp only [List.map_cons, List.sum_cons, add_mul]
    have := mul_le_mul_of_nonneg_left ka k
    have := mul_le_mul_of_nonneg_left kb k
    constructor <;> linarith

theorem comb_x (w : List (K × Pt K)) : (comb w).x = (w.map fun x => x.1 * x.2.x).sum := by
  induction w with
  | nil => rfl
  | cons x w ih => simp [comb, Pt.add, Pt.smul, ih]

theorem comb_y (w : List (K × Pt K)) : (comb w).y = (w.map fun x => x.1 * x.2.y).sum := by
  induction w with
  | nil => rfl
  | cons x w ih => simp [comb, Pt.add, Pt.smul, ih]

theorem comb_z (w : List (K × Pt K)) : (comb w).z = (w.map fun x => x.1 * x.2.z).sum := by
  induction w with
  | nil => rfl
  | cons x w ih => simp [comb, Pt.add, Pt.smul, ih]

theorem within_comb {l : List (Pt K)} {w : List (K × Pt K)} (h : ∀ x ∈ w, 0 ≤ x.1 ∧ x.2 ∈ l)
    (hs : (w.map Prod.fst).sum = 1) : Within l (comb w) := by
  have hx := mean_between (fun x : Pt K => x.x) (a := least (l.map (·.x))) (b := greatest (l.map (·.x))) (w := w)
    fun x hx => ⟨(h x hx).1, (within_mem (h x hx).2).1⟩
  have hy := mean_between (fun x : Pt K => x.y) (a := least (l.map (·.y))) (b := greatest (l.map (·.y))) (w := w)
    fun x hx => ⟨(h x hx).1, (within_mem (h x hx).2).2.1⟩
  have hz := mean_between (fun x : Pt K => x.z) (a := least (l.map (·.z))) (b := greatest (l.map (·.z))) (w := w)
    fun x hx => ⟨(h x hx).1, (within_mem (h x hx).2).2.2⟩
  rw [hs, one_mul, one_mul] at hx hy hz
  rw [← comb_x] at hx
  rw [← comb_y] at hy
  rw [← comb_z] at hz
  exact ⟨hx, hy, hz⟩

theorem within_along {a b : Pt K} {s : K} (h0 : 0 ≤ s) (h1 : s ≤ 1) : Within [a, b] (along (a, b) s) := by
  have : along (a, b) s = comb [(1 - s, a), (s, b)] := by
    ext <;> simp only [along, Pt.add, Pt.smul, Pt.sub, comb] <;> ring
  rw [this]
  refine within_comb ?_ (by simp)
  simp only [List.mem_cons, List.not_mem_nil, or_false, forall_eq_or_imp, forall_eq, true_or, or_true, and_true]
  exact ⟨by linarith, h0⟩

/-- Boxes with points that are close intersect. -/
theorem meet_of_close {tol : K} {l l' : List (Pt K)} {h h' : Pt K} (hl : Within l h) (hl' : Within l' h')
    (hx : |h.x - h'.x| ≤ 2 * tol) (hy : |h.y - h'.y| ≤ 2 * tol) (hz : |h.z - h'.z| ≤ 2 * tol) :
    (aabb tol l).intersects (aabb tol l') := by
  obtain ⟨⟨a1, a2⟩, ⟨a3, a4⟩, ⟨a5, a6⟩⟩ := hl
  obtain ⟨⟨b1, b2⟩, ⟨b3, b4⟩, ⟨b5, b6⟩⟩ := hl'
  obtain ⟨x1, x2⟩ := abs_le.1 hx
  obtain ⟨y1, y2⟩ := abs_le.1 hy
  obtain ⟨z1, z2⟩ := abs_le.1 hz
  simp only [Aabb.intersects, Bool.and_eq_true, decide_eq_true_eq]
  refine ⟨⟨⟨⟨⟨?_, ?_⟩, ?_⟩, ?_⟩, ?_⟩, ?_⟩ <;> (simp only [aabb]; linarith)

theorem coords_le {d : Pt K} {b : K} (hb : 0 ≤ b) (h : d.norm2 ≤ b * b) : |d.x| ≤ b ∧ |d.y| ≤ b ∧ |d.z| ≤ b := by
  simp only [Pt.norm2, Pt.dot] at h
  have hx := mul_self_nonneg d.x
  have hy := mul_self_nonneg d.y
  have hz := mul_self_nonneg d.z
  refine ⟨?_, ?_, ?_⟩
  · exact abs_le_of_sq_le_sq (by rw [pow_two, pow_two]; linarith) hb
  · exact abs_le_of_sq_le_sq (by rw [pow_two, pow_two]; linarith) hb
  · exact abs_le_of_sq_le_sq (by rw [pow_two, pow_two]; linarith) hb

theorem meet_of_norm {tol : K} (ht : 0 ≤ tol) {l l' : List (Pt K)} {h h' : Pt K} (hl : Within l h) (hl' : Within l' h')
    (hn : (h.sub h').norm2 ≤ (2 * tol) * (2 * tol)) : (aabb tol l).intersects (aabb tol l') := by
  obtain ⟨h1, h2, h3⟩ := coords_le (by linarith) hn
  exact meet_of_close hl hl' h1 h2 h3

/-- A vector perpendicular to two axes is along the third. -/
theorem norm_of_perp {u w n d : Pt K} (h : Orthonormal u w n) (hu : d.dot u = 0) (hw : d.dot w = 0) :
    d.norm2 = d.dot n * d.dot n := by
  obtain ⟨h1, h2, h3, h4, h5, h6⟩ := h
  have hm : (u.cross w).dot (u.cross w) = 1 := by
    have : (u.cross w).dot (u.cross w) = u.dot u * w.dot w - u.dot w * u.dot w := by
      simp only [Pt.dot, Pt.cross]; ring
    rw [this, h1, h2, h4]; ring
  have key : ∀ d : Pt K, d.dot u = 0 → d.dot w = 0 → d = Pt.smul ((u.cross w).dot d) (u.cross w) := by
    intro d hu hw
    have e : ∀ a b : K, a * (u.cross w).dot (u.cross w) = b → a = b := by
      intro a b hab; rw [hm, mul_one] at hab; exact hab
    ext
    · apply e
      have : d.x * (u.cross w).dot (u.cross w) - ((u.cross w).dot d) * (u.cross w).x =
          ((u.cross w).cross u).x * d.dot w - ((u.cross w).cross w).x * d.dot u := by
        simp only [Pt.dot, Pt.cross]; ring
      rw [hu, hw] at this
      simp only [Pt.smul]
      linear_combination this
    · apply e
      have : d.y * (u.cross w).dot (u.cross w) - ((u.cross w).dot d) * (u.cross w).y =
          ((u.cross w).cross u).y * d.dot w - ((u.cross w).cross w).y * d.dot u := by
        simp only [Pt.dot, Pt.cross]; ring
      rw [hu, hw] at this
      simp only [Pt.smul]
      linear_combination this
    · apply e
      have : d.z * (u.cross w).dot (u.cross w) - ((u.cross w).dot d) * (u.cross w).z =
          ((u.cross w).cross u).z * d.dot w - ((u.cross w).cross w).z * d.dot u := by
        simp only [Pt.dot, Pt.cross]; ring
      rw [hu, hw] at this
      simp only [Pt.smul]
      linear_combination this
  have comm : ∀ a b : Pt K, a.dot b = b.dot a := fun a b => by simp only [Pt.dot]; ring
  have kd := key d hu hw
  have kn := key n (by rw [comm]; exact h5) (by rw [comm]; exact h6)
  generalize u.cross w = m at *
  have e : ∀ a b : Pt K, (Pt.smul (m.dot a) m).dot (Pt.smul (m.dot b) m) = m.dot a * m.dot b * m.dot m := by
    intro a b; simp only [Pt.dot, Pt.smul]; ring
  have hn1 : m.dot n * m.dot n = 1 := by
    have := e n n
    rw [← kn, h3, hm] at this
    linear_combination -this
  have hdn : d.dot n = m.dot d * m.dot n := by
    have := e d n
    rw [← kd, ← kn, hm] at this
    linear_combination this
  have hdd : d.dot d = m.dot d * m.dot d := by
    have := e d d
    rw [← kd, hm] at this
    linear_combination this
  rw [Pt.norm2, hdd, hdn]
  linear_combination (-(m.dot d * m.dot d)) * hn1

/-- Lifting a weighted mean of projections. -/
theorem lift_hull {P : Type} {xy : P → K × K} {l : List P} {p : K × K} (h : InHull (l.map xy) p) :
    ∃ w : List (K × P), (∀ x ∈ w, 0 ≤ x.1 ∧ x.2 ∈ l) ∧ (w.map Prod.fst).sum = 1 ∧
      comb2 (w.map fun x => (x.1, xy x.2)) = p := by
  obtain ⟨w, h1, h2, h3⟩ := h
  obtain ⟨w', hw', hw⟩ : ∃ w' : List (K × P), (∀ x ∈ w', 0 ≤ x.1 ∧ x.2 ∈ l) ∧ w = w'.map fun x => (x.1, xy x.2) := by
    clear h2 h3
    induction w with
    | nil => exact ⟨[], by simp, rfl⟩
    | cons x w ih =>
      obtain ⟨w', h4, h5⟩ := ih fun y hy => h1 y (by simp [hy])
      obtain ⟨k, hm⟩ := h1 x (by simp)
      obtain ⟨v, hv, hx⟩ := List.mem_map.1 hm
      refine ⟨(x.1, v) :: w', ?_, ?_⟩
      · intro y hy
        rcases List.mem_cons.1 hy with rfl | hy
        · exact ⟨k, hv⟩
        · exact h4 y hy
      · rw [List.map_cons, ← h5, hx]
  subst hw
  refine ⟨w', hw', ?_, h3⟩
  rw [List.map_map] at h2
  exact h2

theorem comb_dot (w : List (K × Pt K)) (c n : Pt K) :
    ((comb w).sub c).dot n = (w.map fun x => x.1 * ((x.2.sub c).dot n)).sum + ((w.map Prod.fst).sum - 1) * c.dot n := by
  induction w with
  | nil => simp only [comb, Pt.sub, Pt.dot, List.map_nil, List.sum_nil]; ring
  | cons x w ih =>
    simp only [List.map_cons, List.sum_cons]
    have : ((comb (x :: w)).sub c).dot n = ((comb w).sub c).dot n + x.1 * ((x.2.sub c).dot n) + x.1 * c.dot n := by
      simp only [comb, Pt.add, Pt.smul, Pt.sub, Pt.dot]; ring
    rw [this, ih]
    ring

/-- A point that is in a ring seen along the normal, not far from the plane, is not far from a point
in the box of the ring. -/
theorem face_close {u w n c x : Pt K} {l : List (Pt K)} {a b : K} (ho : Orthonormal u w n)
    (hh : InHull (l.map fun y => ((y.sub c).dot u, (y.sub c).dot w)) ((x.sub c).dot u, (x.sub c).dot w))
    (hx : |(x.sub c).dot n| ≤ a) (hl : ∀ y ∈ l, |(y.sub c).dot n| ≤ b) :
    ∃ h, Within l h ∧ (x.sub h).norm2 ≤ (a + b) * (a + b) := by
  obtain ⟨ws, h1, h2, h3⟩ := lift_hull hh
  refine ⟨comb ws, within_comb h1 h2, ?_⟩
  simp only [comb2, Prod.mk.injEq, List.map_map, Function.comp_def] at h3
  have hdiff : ∀ v : Pt K, (x.sub (comb ws)).dot v = (x.sub c).dot v - (ws.map fun x => x.1 * ((x.2.sub c).dot v)).sum := by
    intro v
    have := comb_dot ws c v
    rw [h2, sub_self, zero_mul, add_zero] at this
    rw [← this]
    simp only [Pt.sub, Pt.dot]; ring
  have hu : (x.sub (comb ws)).dot u = 0 := by rw [hdiff, ← h3.1, sub_self]
  have hw : (x.sub (comb ws)).dot w = 0 := by rw [hdiff, ← h3.2, sub_self]
  rw [norm_of_perp ho hu hw, hdiff]
  have hb := mean_between (fun y : Pt K => (y.sub c).dot n) (a := -b) (b := b) (w := ws) fun y hy =>
    ⟨(h1 y hy).1, abs_le.1 (hl _ (h1 y hy).2)⟩
  rw [h2, one_mul, one_mul] at hb
  generalize (ws.map fun x => x.1 * ((x.2.sub c).dot n)).sum = s at *
  have hab : |(x.sub c).dot n - s| ≤ a + b := (abs_sub _ _).trans (add_le_add hx (abs_le.2 hb))
  have := mul_self_le_mul_self (abs_nonneg _) hab
  rwa [abs_mul_abs_self] at this

end Tet.Plc
