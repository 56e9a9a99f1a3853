import Verif.Proofs.SteinerInsert

/-!
# A vertex that sees the outer triangles of all tets at an edge
-/

namespace Tet
open Spec Vec4

section
variable {K : Type} [Field K]

/-- A relation of determinants with two common vectors. -/
theorem det_pairs (x y a b c d : Vec4 K) :
    det x y a b * det x y c d - det x y a c * det x y b d + det x y a d * det x y b c = 0 := by
  have h := congrArg (fun v => det x y a v) (cramer x y c d b)
  simp only [det_add, det_smul] at h
  rw [self0, self1] at h
  have e : det x y b c = -det x y c b := swap2 ..
  linear_combination h + det x y a d * e

variable [LinearOrder K] [IsStrictOrderedRing K] {h : VId → Vec4 K} {R : VId → VId → Prop} {x y : VId} {p : Vec4 K}

/-- One cannot turn around an edge forever with the same vector always ahead. -/
theorem no_spin (hfin : {q : VId × VId | R q.1 q.2}.Finite) (hne : ∃ c d, R c d) (hpos : ∀ c d, R c d → 0 < det (h x) (h y) (h c) (h d))
    (hnext : ∀ c d, R c d → ∃ e, R e c) (hp : ∀ c d, R c d → 0 < det (h x) (h y) (h c) p ∧ 0 < det (h x) (h y) (h d) p) : False := by
  obtain ⟨n, n', hn⟩ := hne
  obtain ⟨sn, -⟩ := hp n n' hn
  obtain ⟨⟨c, d⟩, hc, hmax⟩ := hfin.exists_maximalFor (fun q => det (h x) (h y) (h q.1) (h n) / det (h x) (h y) (h q.1) p) _ ⟨(n, n'), hn⟩
  obtain ⟨e, he⟩ := hnext c d hc
  have h1 := hmax (j := (e, c)) he
  obtain ⟨s1, s2⟩ := hp e c he
  have h2 := hpos e c he
  have h3 := det_pairs (h x) (h y) (h e) (h c) (h n) p
  simp only at h1
  have h4 : det (h x) (h y) (h c) (h n) / det (h x) (h y) (h c) p < det (h x) (h y) (h e) (h n) / det (h x) (h y) (h e) p := by
    rw [div_lt_div_iff₀ s2 s1]
    have := mul_pos h2 sn
    nlinarith
  exact absurd (h1 h4.le) (not_le.2 h4)

/-- Around an edge, there is a tet with the vector between its two sides. -/
theorem between_sides (hfin : {q : VId × VId | R q.1 q.2}.Finite) (hne : ∃ c d, R c d) (hpos : ∀ c d, R c d → 0 < det (h x) (h y) (h c) (h d))
    (hnext : ∀ c d, R c d → ∃ e, R e c) (p : Vec4 K) : ∃ c d, R c d ∧ 0 ≤ det (h x) (h y) (h c) p ∧ det (h x) (h y) (h d) p ≤ 0 := by
  by_contra hno
  push Not at hno
  by_cases hA : ∃ c d, R c d ∧ det (h x) (h y) (h d) p ≤ 0
  · obtain ⟨c, d, h1, h2⟩ := hA
    have back : ∀ c d, R c d → det (h x) (h y) (h d) p ≤ 0 → det (h x) (h y) (h c) p < 0 := by
      intro c d hcd hd
      by_contra hc
      exact absurd hd (not_le.2 (hno c d hcd (not_lt.1 hc)))
    have hc := back c d h1 h2
    obtain ⟨e, he⟩ := hnext c d h1
    refine no_spin (h := h) (x := x) (y := y) (p := -p) (R := fun c d => R c d ∧ det (h x) (h y) (h c) p < 0 ∧ det (h x) (h y) (h d) p < 0)
      (hfin.subset fun q hq => hq.1) ⟨e, c, he, back e c he hc.le, hc⟩ (fun c d h => hpos c d h.1) ?_ ?_
    · rintro c d ⟨q1, q2, -⟩
      obtain ⟨e, he⟩ := hnext c d q1
      exact ⟨e, he, back e c he q2.le, q2⟩
    · rintro c d ⟨-, q2, q3⟩
      rw [det_neg, det_neg]
      exact ⟨neg_pos.2 q2, neg_pos.2 q3⟩
  · push Not at hA
    refine no_spin (h := h) (x := x) (y := y) (p := p) hfin hne hpos hnext fun c d hcd => ?_
    obtain ⟨e, he⟩ := hnext c d hcd
    exact ⟨hA e c he, hA c d hcd⟩

end

variable {K V T : Type} [Field K] [LinearOrder K] [IsStrictOrderedRing K] {m : Mesh (Pt K) V T} {id x y : VId} {E : List TId} {B : List Walker}

/-- The vertex has positive coordinates at both ends of the edge. -/
theorem seen_end (hE : AllAt m [x, y] E) (hm : Consistent m) (ht : Tiles m)
    (hs : ∀ w a b c, Outer m E w → m.tri w = some (a, b, c) → 0 < D (homv m) (a, b, c, id)) {w : Walker} {a b c d : VId}
    (hk : w.tet ∈ E) (hw : m.tet4 w = some (a, b, c, d)) (hd : d ∈ [x, y]) : 0 < D (homv m) (a, b, c, id) :=
  hs w a b c ((hE.outer_iff hm ht hw hk).2 hd) (tet4_parts hw).2.2.2

/-- Tets at an edge whose outer triangles are all seen. -/
theorem starStart_of_seen {p : Pt K} (hxy : x ≠ y) (hE : AllAt m [x, y] E) (hm : Consistent m) (ht : Tiles m) (hid : At m id p) (hB : Boundary m E B)
    (hs : ∀ w a b c, Outer m E w → m.tri w = some (a, b, c) → 0 < D (homv m) (a, b, c, id)) : StarStart m id p E B := by
  have see := fun {w a b c d} => seen_end hE hm ht hs (w := w) (a := a) (b := b) (c := c) (d := d)
  refine ⟨hm, ht, hid, hE.live, hE.nodup, hE.ne, hB, hs, ?_, ?_⟩
  · rintro w v b c d ka kb kc kd hk hw ⟨e, hb, hc, hd⟩
    have hsub := (hE.mem _ _ _ _ _ hw).1 hk
    have d1 : 0 < D (homv m) (v, b, c, d) := ht.positive.pos ⟨_, hw⟩
    -- the coordinate at a corner of the edge other than `v` is positive
    have key : ∀ {a' b' c' d' : VId} {la lb lc ld : K}, SameTet (v, b, c, d) (a', b', c', d') → d' ∈ [x, y] →
        homv m id = la • homv m a' + lb • homv m b' + lc • homv m c' + ld • homv m d' → 0 < ld := by
      intro a' b' c' d' la lb lc ld hst hd' e'
      obtain ⟨w', hw', hq'⟩ := tet4_write hw hst
      have h1 := see (by rw [hw']; exact hk) hq' hd'
      have d2 : 0 < F (homv m) (a', b', c', d') (homv m d') := ht.positive.pos ⟨_, hq'⟩
      change 0 < F (homv m) (a', b', c', d') (homv m id) at h1
      have z1 : F (homv m) (a', b', c', d') (homv m a') = 0 := self0 ..
      have z2 : F (homv m) (a', b', c', d') (homv m b') = 0 := self1 ..
      have z3 : F (homv m) (a', b', c', d') (homv m c') = 0 := self2 ..
      rw [e'] at h1
      simp only [map_add, map_smul, z1, z2, z3, smul_zero, zero_add, smul_eq_mul, mul_zero] at h1
      exact (pos_iff_pos_of_mul_pos h1).2 d2
    have kd' : d ∈ [x, y] → False := fun h => absurd (key (mem_twelve.1 (by simp [twelve])) h e) (not_lt.2 hd)
    have kc' : c ∈ [x, y] → False := fun h => absurd (key (a' := v) (b' := d) (c' := b) (la := ka) (lb := kd) (lc := kb) (ld := kc)
      (mem_twelve.1 (by simp [twelve])) h (by rw [e]; abel)) (not_lt.2 hc)
    have kb' : b ∈ [x, y] → False := fun h => absurd (key (a' := v) (b' := c) (c' := d) (la := ka) (lb := kc) (lc := kd) (ld := kb)
      (mem_twelve.1 (by simp [twelve])) h (by rw [e]; abel)) (not_lt.2 hb)
    have other : ∀ u ∈ [x, y], u = v := by
      intro u hu
      have := hsub hu
      simp only [List.mem_cons, List.not_mem_nil, or_false] at this
      rcases this with rfl | rfl | rfl | rfl
      · rfl
      · exact (kb' hu).elim
      · exact (kc' hu).elim
      · exact (kd' hu).elim
    exact hxy ((other x (by simp)).trans (other y (by simp)).symm)
  · intro v hv ha
    have e : homv m v = homv m id := by rw [hid.homv, ha.homv]
    have hwt : 0 < last4 (homv m v) := by
      rw [ha.homv]; simp [last4, hom]
    obtain ⟨k, hk⟩ := List.exists_mem_of_ne_nil E hE.ne
    obtain ⟨t, htk⟩ := Option.isSome_iff_exists.1 (hE.live k hk)
    obtain ⟨⟨a, b, c, d⟩, hq⟩ : ∃ q, m.tet4 ⟨k, 0⟩ = some q := ⟨_, Mesh.tet4_iff.2 ⟨t, htk, rfl⟩⟩
    have hsub := (hE.mem _ _ _ _ _ hq).1 hk
    obtain ⟨c0, d0, hst⟩ := two_of_four (hsub (show x ∈ [x, y] by simp)) (hsub (show y ∈ [x, y] by simp)) hxy
    have hf := ht.fan hm.toT
    have h0 : HasTet m (x, y, c0, d0) := hf.closed _ _ ⟨_, hq⟩ hst
    obtain ⟨c, d, hcd, s1, s2⟩ := between_sides (h := homv m) (x := x) (y := y) (R := fun c d => HasTet m (x, y, c, d)) (by
        refine (hf.fin.image fun q : V4 => (q.2.2.1, q.2.2.2)).subset ?_
        rintro ⟨c, d⟩ hq
        exact ⟨(x, y, c, d), hq, rfl⟩) ⟨c0, d0, h0⟩ (fun c d h => hf.pos _ h) (fun c d => by
        rintro ⟨w, hw⟩
        obtain ⟨w', e, -, h2⟩ := adj_tet4 hm hw
        exact ⟨e, hf.closed _ _ ⟨w', h2⟩ (mem_twelve.1 (by simp [twelve]))⟩) (homv m id)
    obtain ⟨w, hw⟩ := hcd
    have hwE : w.tet ∈ E := (hE.mem _ _ _ _ _ hw).2 (by simp)
    -- all four sides
    have fy : 0 < F (homv m) (x, c, d, y) (homv m id) := by
      obtain ⟨w', hw', hq'⟩ := tet4_write (q := (x, c, d, y)) hw (mem_twelve.1 (by simp [twelve]))
      exact see (by rw [hw']; exact hwE) hq' (by simp)
    have fx : 0 < F (homv m) (y, d, c, x) (homv m id) := by
      obtain ⟨w', hw', hq'⟩ := tet4_write (q := (y, d, c, x)) hw (mem_twelve.1 (by simp [twelve]))
      exact see (by rw [hw']; exact hwE) hq' (by simp)
    have hV : HasV (x, y, c, d) v := by
      refine vertex_of_tet hm ht hv hwt ⟨_, hw⟩ ?_
      rw [e]
      intro r hr
      have g2 : 0 ≤ det (homv m y) (homv m x) (homv m d) (homv m id) := by
        rw [swap0]; linarith
      have hr' := mem_twelve.2 hr
      simp only [twelve, List.mem_cons, List.not_mem_nil, or_false] at hr'
      have cyc : ∀ a b c : VId, det (homv m b) (homv m c) (homv m a) (homv m id) = det (homv m a) (homv m b) (homv m c) (homv m id) :=
        fun a b c => cyc3 (h := homv m) a b c _
      change 0 < det (homv m x) (homv m c) (homv m d) (homv m id) at fy
      change 0 < det (homv m y) (homv m d) (homv m c) (homv m id) at fx
      have c1 := cyc x y c
      have c2 := cyc y c x
      have c3 := cyc y x d
      have c4 := cyc x d y
      have c5 := cyc x c d
      have c6 := cyc c d x
      have c7 := cyc y d c
      have c8 := cyc d c y
      rcases hr' with rfl | rfl | rfl | rfl | rfl | rfl | rfl | rfl | rfl | rfl | rfl | rfl <;> simp only [F, fun3_apply] <;> linarith
    simp only [HasV, List.mem_cons, List.not_mem_nil, or_false] at hV
    rw [← e] at fx fy
    rcases hV with rfl | rfl | rfl | rfl
    · have : F (homv m) (v, c, d, y) (homv m v) = 0 := self0 ..
      linarith
    · have : F (homv m) (v, d, c, x) (homv m v) = 0 := self0 ..
      linarith
    · have : F (homv m) (x, v, d, y) (homv m v) = 0 := self1 ..
      linarith
    · have : F (homv m) (x, c, v, y) (homv m v) = 0 := self2 ..
      linarith

/-! ### What the assertion says -/

theorem markInitial_seen {P : Type} {m : Mesh P V T} {tests : CavityTests} : ∀ {l : List Walker} {m' : Mesh P V T},
    l.foldlM (Mesh.markInitial tests true) m = some m' → ∀ b ∈ l, ∃ vs, m.tri b = some vs ∧ tests.above vs = true := by
  intro l
  induction l generalizing m with
  | nil => intro _ _ b hb; cases hb
  | cons w l ih =>
    intro m' h b hb
    rw [List.foldlM_cons, Option.bind_eq_bind] at h
    obtain ⟨m1, h1, h⟩ := Option.bind_eq_some_iff.1 h
    unfold Mesh.markInitial at h1
    obtain ⟨vs, h2, h1⟩ := Option.bind_eq_some_iff.1 h1
    split_ifs at h1 with hab
    rcases List.mem_cons.1 hb with rfl | hb
    · exact ⟨vs, h2, by simpa using hab⟩
    · obtain ⟨vs', h3, h4⟩ := ih h b hb
      refine ⟨vs', ?_, h4⟩
      unfold Mesh.modTet at h1
      split_ifs at h1
      cases h1
      rw [← h3]
      simp only [Mesh.tri, IdMap.get_modify]
      split_ifs
      · rw [Option.map_map]
        rfl
      · rfl

/-- The cavity is computed only if the outer triangles are seen. -/
theorem cavity_seen {p : Pt K} (hxy : x ≠ y) (hE : AllAt m [x, y] E) (hm : Consistent m) (ht : Tiles m) (hid : At m id p) (hB : Boundary m E B) :
    StarStart m id p E B ∨ ∀ n, Mesh.pointCavity (pointTests m id) B E [] m false true true n = none := by
  cases hf : B.foldlM (Mesh.markInitial (pointTests m id) true) m with
  | none => exact .inr fun n => by simp [Mesh.pointCavity, hf]
  | some m' =>
    refine .inl (starStart_of_seen hxy hE hm ht hid hB fun w a b c ho hw => ?_)
    obtain ⟨b', hb', hs⟩ := (hB.exact w).2 ho
    obtain ⟨vs, h1, h2⟩ := markInitial_seen hf b' hb'
    obtain ⟨vs', h3, h4⟩ := rotation_walker hs h1
    rw [hw] at h3
    cases h3
    rw [pointTests_rot _ _ h4] at h2
    obtain ⟨k1, k2, k3⟩ := placed_tri hm hw
    have hpid : Spec.Placed m id := by
      obtain ⟨x, hx, -⟩ := hid.2
      exact .inr (by rw [hx]; simp)
    exact (pointTests_above k1 k2 k3 hpid).1 h2

end Tet
