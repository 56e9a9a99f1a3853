import Verif.Proofs.StarGrow
import Verif.Spec.Steiner
import Verif.Proofs.FanLine

/-!
# The tets around an edge or a triangle with a point in it
-/

namespace Tet
open Spec Vec4
variable {K V T : Type} [Field K] [LinearOrder K] [IsStrictOrderedRing K]
variable {m : Mesh (Pt K) V T} {id : VId} {E : List TId} {B : List Walker} {C : List VId} {φ : VId → K}

/-- The new vertex is a combination of the corners with positive weights. -/
structure Weights (m : Mesh (Pt K) V T) (id : VId) (C : List VId) (φ : VId → K) : Prop where
  pos : ∀ v ∈ C, 0 < φ v
  zero : ∀ v, v ∉ C → φ v = 0
  eq : homv m id = (C.map fun v => φ v • homv m v).sum
  nodup : C.Nodup
  two : 2 ≤ C.length

/-- All tets with these corners. -/
structure AllAt {P : Type} (m : Mesh P V T) (C : List VId) (E : List TId) : Prop where
  live : ∀ k ∈ E, (m.tets.get k).isSome
  nodup : E.Nodup
  ne : E ≠ []
  mem : ∀ w a b c d, m.tet4 w = some (a, b, c, d) → (w.tet ∈ E ↔ C ⊆ [a, b, c, d])

omit [IsStrictOrderedRing K] in
theorem Weights.comb (h : Weights m id C φ) {a b c d : VId} (hs : C ⊆ [a, b, c, d]) (hn : [a, b, c, d].Nodup) :
    homv m id = φ a • homv m a + φ b • homv m b + φ c • homv m c + φ d • homv m d := by
  classical
  have e1 := List.sum_toFinset (fun v => φ v • homv m v) h.nodup
  have e2 := List.sum_toFinset (fun v => φ v • homv m v) hn
  have e3 : ∑ v ∈ C.toFinset, φ v • homv m v = ∑ v ∈ [a, b, c, d].toFinset, φ v • homv m v := by
    refine Finset.sum_subset (fun v hv => by simpa using hs (by simpa using hv)) fun v _ hv => ?_
    rw [h.zero v (by simpa using hv), zero_smul]
  rw [h.eq, ← e1, e3, e2]
  simp [add_assoc]

omit [IsStrictOrderedRing K] in
theorem Weights.nonneg (h : Weights m id C φ) (v : VId) : 0 ≤ φ v := by
  by_cases hv : v ∈ C
  · exact (h.pos v hv).le
  · rw [h.zero v hv]

omit [IsStrictOrderedRing K] in
theorem Weights.other (h : Weights m id C φ) (a : VId) : ∃ v ∈ C, v ≠ a := by
  by_contra hcon
  push Not at hcon
  have hn := h.nodup
  have h2 := h.two
  match C, hn, h2, hcon with
  | x :: y :: l, hn, _, hcon =>
    rw [List.nodup_cons] at hn
    exact hn.1 (by simp [hcon x (by simp), hcon y (by simp)])

omit [IsStrictOrderedRing K] in
theorem adj_tet4 {P : Type} {m : Mesh P V T} (hm : Consistent m) {w : Walker} {a b c d : VId} (h : m.tet4 w = some (a, b, c, d)) :
    ∃ w' e, m.toAdj w = some w' ∧ m.tet4 w' = some (b, a, c, e) := by
  obtain ⟨w', x, y, z, h1, -, h3, h4⟩ := hm.adjacent w (live_iff.2 ⟨a, b, c, d, h⟩)
  rw [(tet4_parts h).2.2.2] at h3
  cases h3
  obtain ⟨e, he⟩ := tri_tet4 h4
  exact ⟨w', e, h1, he⟩

/-- The triangles that leave the tets are those opposite the corners. -/
theorem AllAt.outer_iff (hE : AllAt m C E) (hm : Consistent m) (ht : Tiles m) {w : Walker} {a b c d : VId} (hw : m.tet4 w = some (a, b, c, d))
    (hk : w.tet ∈ E) : Outer m E w ↔ d ∈ C := by
  have hsub := (hE.mem w a b c d hw).1 hk
  obtain ⟨w', e, h1, h2⟩ := adj_tet4 hm hw
  constructor
  · rintro ⟨-, w2, h3, h4⟩
    rw [h1] at h3
    cases h3
    by_contra hd
    refine h4 ((hE.mem _ _ _ _ _ h2).2 fun v hv => ?_)
    have := hsub hv
    simp only [List.mem_cons, List.not_mem_nil, or_false] at this ⊢
    rcases this with rfl | rfl | rfl | rfl
    · simp
    · simp
    · simp
    · exact absurd hv hd
  · intro hd
    refine ⟨hk, w', h1, fun h4 => ?_⟩
    have := (hE.mem _ _ _ _ _ h2).1 h4 hd
    have hn := hm.distinct _ _ _ _ _ hw
    simp only [List.nodup_cons, List.mem_cons, List.not_mem_nil, or_false, not_or] at hn
    simp only [List.mem_cons, List.not_mem_nil, or_false] at this
    rcases this with rfl | rfl | rfl | rfl
    · exact hn.2.1.2 rfl
    · exact hn.1.2.2 rfl
    · exact hn.2.2.1 rfl
    · have d1 : 0 < det (homv m a) (homv m b) (homv m c) (homv m d) := ht.positive.pos ⟨_, hw⟩
      have d2 : 0 < det (homv m b) (homv m a) (homv m c) (homv m d) := ht.positive.pos ⟨_, h2⟩
      rw [Vec4.swap0] at d2
      linarith

theorem Weights.seen (h : Weights m id C φ) (hE : AllAt m C E) (hm : Consistent m) (ht : Tiles m) {w : Walker} {a b c : VId}
    (ho : Outer m E w) (hw : m.tri w = some (a, b, c)) : 0 < D (homv m) (a, b, c, id) := by
  obtain ⟨d, hq⟩ := tri_tet4 hw
  have hd := (hE.outer_iff hm ht hq ho.1).1 ho
  have d1 : 0 < F (homv m) (a, b, c, d) (homv m d) := ht.positive.pos ⟨_, hq⟩
  change 0 < F (homv m) (a, b, c, d) (homv m id)
  rw [h.comb ((hE.mem _ _ _ _ _ hq).1 ho.1) (hm.distinct _ _ _ _ _ hq)]
  have z1 : F (homv m) (a, b, c, d) (homv m a) = 0 := self0 ..
  have z2 : F (homv m) (a, b, c, d) (homv m b) = 0 := self1 ..
  have z3 : F (homv m) (a, b, c, d) (homv m c) = 0 := self2 ..
  simp only [map_add, map_smul, z1, z2, z3, smul_zero, zero_add, smul_eq_mul, mul_zero]
  exact mul_pos (h.pos d hd) d1

/-- Coordinates are unique. -/
theorem coords {h : VId → Vec4 K} {a b c d : VId} (hD : 0 < D h (a, b, c, d)) {ka kb kc kd la lb lc ld : K}
    (e : ka • h a + kb • h b + kc • h c + kd • h d = la • h a + lb • h b + lc • h c + ld • h d) :
    ka = la ∧ kb = lb ∧ kc = lc ∧ kd = ld := by
  have key : ∀ {a b c d : VId}, 0 < D h (a, b, c, d) → ∀ {ka kb kc kd la lb lc ld : K},
      ka • h a + kb • h b + kc • h c + kd • h d = la • h a + lb • h b + lc • h c + ld • h d → kd = ld := by
    intro a b c d hD ka kb kc kd la lb lc ld e
    have := congrArg (F h (a, b, c, d)) e
    have z1 : F h (a, b, c, d) (h a) = 0 := self0 ..
    have z2 : F h (a, b, c, d) (h b) = 0 := self1 ..
    have z3 : F h (a, b, c, d) (h c) = 0 := self2 ..
    have z4 : F h (a, b, c, d) (h d) = D h (a, b, c, d) := rfl
    simp only [map_add, map_smul, z1, z2, z3, z4, smul_zero, zero_add, smul_eq_mul, mul_zero] at this
    exact mul_right_cancel₀ hD.ne' this
  refine ⟨?_, ?_, ?_, key hD e⟩
  · refine key (a := b) (b := d) (c := c) (d := a) ?_ (ka := kb) (kb := kd) (kc := kc) (la := lb) (lb := ld) (lc := lc) ?_
    · rwa [D_same (p := (a, b, c, d)) (mem_twelve.1 (by simp [twelve]))]
    · rw [show kb • h b + kd • h d + kc • h c + ka • h a = ka • h a + kb • h b + kc • h c + kd • h d by abel, e]; abel
  · refine key (a := a) (b := c) (c := d) (d := b) ?_ (ka := ka) (kb := kc) (kc := kd) (la := la) (lb := lc) (lc := ld) ?_
    · rwa [D_same (p := (a, b, c, d)) (mem_twelve.1 (by simp [twelve]))]
    · rw [show ka • h a + kc • h c + kd • h d + kb • h b = ka • h a + kb • h b + kc • h c + kd • h d by abel, e]; abel
  · refine key (a := a) (b := d) (c := b) (d := c) ?_ (ka := ka) (kb := kd) (kc := kb) (la := la) (lb := ld) (lc := lb) ?_
    · rwa [D_same (p := (a, b, c, d)) (mem_twelve.1 (by simp [twelve]))]
    · rw [show ka • h a + kd • h d + kb • h b + kc • h c = ka • h a + kb • h b + kc • h c + kd • h d by abel, e]; abel

omit [IsStrictOrderedRing K] in
theorem Weights.some_pos (h : Weights m id C φ) {v b c d : VId} (hs : C ⊆ [v, b, c, d]) : 0 < φ b ∨ 0 < φ c ∨ 0 < φ d := by
  obtain ⟨u, hu, hne⟩ := h.other v
  have hp := h.pos u hu
  have := hs hu
  simp only [List.mem_cons, List.not_mem_nil, or_false] at this
  rcases this with rfl | rfl | rfl | rfl
  · exact absurd rfl hne
  · exact .inl hp
  · exact .inr (.inl hp)
  · exact .inr (.inr hp)

theorem Weights.front (h : Weights m id C φ) (hE : AllAt m C E) (hm : Consistent m) (ht : Tiles m) {w : Walker} {v b c d : VId}
    {ka kb kc kd : K} (hk : w.tet ∈ E) (hw : m.tet4 w = some (v, b, c, d)) : ¬ Behind m id v b c d ka kb kc kd := by
  rintro ⟨e, hb, hc, hd⟩
  have hs := (hE.mem _ _ _ _ _ hw).1 hk
  rw [h.comb hs (hm.distinct _ _ _ _ _ hw)] at e
  obtain ⟨-, rfl, rfl, rfl⟩ := coords (ht.positive.pos ⟨_, hw⟩) e
  rcases h.some_pos hs with h | h | h <;> linarith

/-- A point of a closed tet at which there is a vertex. -/
theorem vertex_of_tet (hm : Consistent m) (ht : Tiles m) {v : VId} (hv : InMesh m v) (hwt : 0 < last4 (homv m v)) {q : V4}
    (hq : HasTet m q) (hin : ∀ r, SameTet q r → 0 ≤ F (homv m) r (homv m v)) : HasV q v := by
  obtain ⟨ids, hids, hg, hs, h4⟩ := hm.glued
  have hf := ht.fan hm.toT
  obtain ⟨a, b, c, d⟩ := q
  have hD : 0 < D (homv m) (a, b, c, d) := ht.positive.pos hq
  obtain ⟨z, hz, hG⟩ := near_free (G := (twelve (a, b, c, d)).map (F (homv m))) hf.fin hf.pos (fun g hg => by
    obtain ⟨r, hr, rfl⟩ := List.mem_map.1 hg
    exact Towards.corner hD r (mem_twelve.1 hr))
  obtain ⟨w, hw⟩ := hv
  obtain ⟨b', c', d', hq'⟩ := first_tet4 hw
  have hat : w.tet ∈ ids ∧ SameTet (tetAt m w.tet) (v, b', c', d') := by
    obtain ⟨t, ht, -⟩ := Mesh.tet4_iff.1 hq'
    have hk : w.tet ∈ ids := (hids _).2 (by rw [ht]; rfl)
    exact ⟨hk, tet4_same (w := Mesh.walkerFromTetId w.tet) (w' := w) rfl ((h4 _ _).2 ⟨hk, rfl⟩) hq'⟩
  have hpos : ∀ k ∈ ids, 0 < D (homv m) (tetAt m k) := fun k hk => ht.positive.pos ⟨_, (h4 k _).2 ⟨hk, rfl⟩⟩
  obtain ⟨k', hk', hv', hF⟩ := hg.toward (h := homv m) hpos hat.1 (v := v) ((sameTet_hasV hat.2).1 (by simp [HasV])) z
  have hk2 : HasTet m (tetAt m k') := ⟨_, (h4 k' _).2 ⟨hk', rfl⟩⟩
  have hov := hf.overlap hq hk2 hwt (z := z) (fun r hr => by
    rcases (hin r hr).lt_or_eq with h | h
    · exact .inl h
    · exact .inr ⟨h.symm, hG _ (List.mem_map_of_mem (mem_twelve.2 hr))⟩) (fun r hr => by
    obtain ⟨x, y, z', u⟩ := r
    have hr0 : HasV (x, y, z', u) v := (sameTet_hasV hr).2 hv'
    have hDr : 0 < F (homv m) (x, y, z', u) (homv m u) := by
      have := hpos k' hk'
      rwa [← D_same hr] at this
    have key : F (homv m) (x, y, z', u) (homv m v) = 0 → 0 < F (homv m) (x, y, z', u) z := fun h0 =>
      (hF _ hr h0).lt_of_ne fun e => hz _ (hf.closed _ _ hk2 hr) e.symm
    simp only [HasV, List.mem_cons, List.not_mem_nil, or_false] at hr0
    rcases hr0 with rfl | rfl | rfl | rfl
    · have e : F (homv m) (v, y, z', u) (homv m v) = 0 := self0 ..
      exact .inr ⟨e, key e⟩
    · have e : F (homv m) (x, v, z', u) (homv m v) = 0 := self1 ..
      exact .inr ⟨e, key e⟩
    · have e : F (homv m) (x, y, v, u) (homv m v) = 0 := self2 ..
      exact .inr ⟨e, key e⟩
    · exact .inl hDr)
  exact (sameTet_hasV hov).1 hv'

/-- No vertex is at the point. -/
theorem Weights.apart {p : Pt K} (h : Weights m id C φ) (hE : AllAt m C E) (hm : Consistent m) (ht : Tiles m) (hid : At m id p)
    {v : VId} (hv : InMesh m v) : ¬ At m v p := by
  intro ha
  have e : homv m v = homv m id := by rw [hid.homv, ha.homv]
  obtain ⟨k, hk⟩ := List.exists_mem_of_ne_nil E hE.ne
  obtain ⟨t, htk⟩ := Option.isSome_iff_exists.1 (hE.live k hk)
  obtain ⟨⟨a, b, c, d⟩, hq⟩ : ∃ q, m.tet4 ⟨k, 0⟩ = some q := ⟨_, Mesh.tet4_iff.2 ⟨t, htk, rfl⟩⟩
  have hwt : 0 < last4 (homv m v) := by
    rw [ha.homv]; simp [last4, hom]
  have hw : HasV (a, b, c, d) v := by
    refine vertex_of_tet hm ht hv hwt ⟨_, hq⟩ ?_
    rintro ⟨x, y, z, u⟩ hs
    obtain ⟨w', hw', hq'⟩ := tet4_write hq hs
    have d1 : 0 < F (homv m) (x, y, z, u) (homv m u) := ht.positive.pos ⟨_, hq'⟩
    rw [e, h.comb ((hE.mem _ _ _ _ _ hq').1 (by rw [hw']; exact hk)) (hm.distinct _ _ _ _ _ hq')]
    have z1 : F (homv m) (x, y, z, u) (homv m x) = 0 := self0 ..
    have z2 : F (homv m) (x, y, z, u) (homv m y) = 0 := self1 ..
    have z3 : F (homv m) (x, y, z, u) (homv m z) = 0 := self2 ..
    simp only [map_add, map_smul, z1, z2, z3, smul_zero, zero_add, smul_eq_mul, mul_zero]
    exact mul_nonneg (h.nonneg u) d1.le
  obtain ⟨b', c', d', hs⟩ : ∃ b' c' d', SameTet (a, b, c, d) (v, b', c', d') := by
    simp only [HasV, List.mem_cons, List.not_mem_nil, or_false] at hw
    rcases hw with rfl | rfl | rfl | rfl
    · exact ⟨b, c, d, mem_twelve.1 (by simp [twelve])⟩
    · exact ⟨c, a, d, mem_twelve.1 (by simp [twelve])⟩
    · exact ⟨a, b, d, mem_twelve.1 (by simp [twelve])⟩
    · exact ⟨a, c, b, mem_twelve.1 (by simp [twelve])⟩
  obtain ⟨w', hw', hq'⟩ := tet4_write hq hs
  refine h.front hE hm ht (w := w') (ka := 1) (kb := 0) (kc := 0) (kd := 0) (by rw [hw']; exact hk) hq' ⟨?_, le_rfl, le_rfl, le_rfl⟩
  rw [← e]; simp

theorem Weights.start {p : Pt K} (h : Weights m id C φ) (hE : AllAt m C E) (hm : Consistent m) (ht : Tiles m) (hid : At m id p)
    (hB : Boundary m E B) : StarStart m id p E B :=
  ⟨hm, ht, hid, hE.live, hE.nodup, hE.ne, hB, fun _ _ _ _ => h.seen hE hm ht, fun _ _ _ _ _ _ _ _ _ => h.front hE hm ht,
    fun _ hv => h.apart hE hm ht hid hv⟩

/-! ### The outer triangles -/

section
variable {P : Type} {m : Mesh P V T}

/-- A triangle of a tet is known by the vertex opposite of it. -/
theorem sameTri_fourth (hm : Consistent m) {b w : Walker} (hb : Live m b) : SameTri b w ↔ b.tet = w.tet ∧ m.fourth b = m.fourth w := by
  obtain ⟨x, y, z, u, hq⟩ := live_iff.1 hb
  obtain ⟨t, h1, -⟩ := Mesh.tet4_iff.1 hq
  have inj := hm.toT.distinct _ t h1
  rw [sameTri_iff, fid, fid, Prod.mk.injEq]
  constructor
  · rintro ⟨h2, h3⟩
    refine ⟨h2.symm, ?_⟩
    rw [Mesh.fourth, Mesh.fourth, h2, h1]
    simp [Tet.fourth, h3]
  · rintro ⟨h2, h3⟩
    refine ⟨h2.symm, ?_⟩
    rw [Mesh.fourth, Mesh.fourth, ← h2, h1] at h3
    simp only [Option.map_some, Option.some.injEq, Tet.fourth] at h3
    exact (inj h3).symm

end

theorem AllAt.boundary (hE : AllAt m C E) (hm : Consistent m) (ht : Tiles m) (h1 : ∀ b ∈ B, b.tet ∈ E ∧ ∃ v ∈ C, m.fourth b = some v)
    (h2 : ∀ k ∈ E, ∀ v ∈ C, ∃ b ∈ B, b.tet = k ∧ m.fourth b = some v)
    (h3 : B.Pairwise fun a b => ¬ (a.tet = b.tet ∧ m.fourth a = m.fourth b)) : Boundary m E B := by
  have hl : ∀ w : Walker, w.tet ∈ E → Live m w := by
    intro w hw
    obtain ⟨t, ht⟩ := Option.isSome_iff_exists.1 (hE.live _ hw)
    obtain ⟨⟨x, y, z, u⟩, hq⟩ : ∃ q, m.tet4 w = some q := ⟨_, Mesh.tet4_iff.2 ⟨t, ht, rfl⟩⟩
    exact live_iff.2 ⟨_, _, _, _, hq⟩
  constructor
  · refine h3.imp_of_mem fun {a b} ha hb hab hs => hab ?_
    exact (sameTri_fourth hm (hl a (h1 a ha).1)).1 hs
  · intro w
    constructor
    · rintro ⟨b, hb, hs⟩
      obtain ⟨k1, v, hv, k2⟩ := h1 b hb
      obtain ⟨j1, j2⟩ := (sameTri_fourth hm (hl b k1)).1 hs
      obtain ⟨x, y, z, u, hq⟩ := live_iff.1 (hl w (j1 ▸ k1))
      refine (hE.outer_iff hm ht hq (j1 ▸ k1)).2 ?_
      rw [k2, tet4_fourth hq] at j2
      cases j2
      exact hv
    · intro ho
      have hw : w.tet ∈ E := ho.1
      obtain ⟨x, y, z, u, hq⟩ := live_iff.1 (hl w hw)
      obtain ⟨b, hb, j1, j2⟩ := h2 _ hw u ((hE.outer_iff hm ht hq hw).1 ho)
      exact ⟨b, hb, (sameTri_fourth hm (hl b (h1 b hb).1)).2 ⟨j1, by rw [j2, tet4_fourth hq]⟩⟩

section
variable {P : Type} {m : Mesh P V T}

theorem fourth_tet4 {w : Walker} {a b c d : VId} (h : m.tet4 w = some (a, b, c, d)) : m.fourth w = some d := by
  obtain ⟨t, h1, h2⟩ := Mesh.tet4_iff.1 h
  simp only [Tet.tet, Prod.mk.injEq] at h2
  rw [Mesh.fourth, h1, Option.map_some, h2.2.2.2]

theorem two_of_four {x y z u a b : VId} (ha : a ∈ [x, y, z, u]) (hb : b ∈ [x, y, z, u]) (hab : a ≠ b) :
    ∃ c d, SameTet (x, y, z, u) (a, b, c, d) := by
  simp only [List.mem_cons, List.not_mem_nil, or_false] at ha hb
  have key : ∀ {p q : V4}, q ∈ twelve p → SameTet p q := fun h => mem_twelve.1 h
  rcases ha with rfl | rfl | rfl | rfl <;> rcases hb with rfl | rfl | rfl | rfl <;> first
    | exact absurd rfl hab
    | (refine ⟨x, y, key ?_⟩; simp [twelve]; done)
    | (refine ⟨y, x, key ?_⟩; simp [twelve]; done)
    | (refine ⟨x, z, key ?_⟩; simp [twelve]; done)
    | (refine ⟨z, x, key ?_⟩; simp [twelve]; done)
    | (refine ⟨x, u, key ?_⟩; simp [twelve]; done)
    | (refine ⟨u, x, key ?_⟩; simp [twelve]; done)
    | (refine ⟨y, z, key ?_⟩; simp [twelve]; done)
    | (refine ⟨z, y, key ?_⟩; simp [twelve]; done)
    | (refine ⟨y, u, key ?_⟩; simp [twelve]; done)
    | (refine ⟨u, y, key ?_⟩; simp [twelve]; done)
    | (refine ⟨z, u, key ?_⟩; simp [twelve]; done)
    | (refine ⟨u, z, key ?_⟩; simp [twelve]; done)

theorem three_of_four {x y z u a b c : VId} (ha : a ∈ [x, y, z, u]) (hb : b ∈ [x, y, z, u]) (hc : c ∈ [x, y, z, u]) (hab : a ≠ b)
    (hac : a ≠ c) (hbc : b ≠ c) : ∃ d, SameTet (x, y, z, u) (a, b, c, d) ∨ SameTet (x, y, z, u) (b, a, c, d) := by
  obtain ⟨e, f, hs⟩ := two_of_four ha hb hab
  have h : HasV (a, b, e, f) c := (sameTet_hasV hs).2 hc
  simp only [HasV, List.mem_cons, List.not_mem_nil, or_false] at h
  rcases h with rfl | rfl | rfl | rfl
  · exact absurd rfl hac
  · exact absurd rfl hbc
  · exact ⟨f, .inl hs⟩
  · exact ⟨e, .inr (SameTet.trans' hs (mem_twelve.1 (by simp [twelve])))⟩

/-- The triangles next to that of the walker. -/
theorem three_fourth {w : Walker} {a b c d : VId} (h : m.tet4 w = some (a, b, c, d)) :
    m.fourth w.twin = some c ∧ m.fourth w.opp = some b ∧ m.fourth (w.perm P3210) = some a :=
  ⟨fourth_tet4 (tet4_turns h).2.2.1, fourth_tet4 (tet4_turns h).2.2.2.1, fourth_tet4 (tet4_perm h P3210)⟩

/-- Walkers of a tet with the same edge. -/
theorem walker_edge (hm : Consistent m) {w w' : Walker} {e : VId × VId} (h1 : m.edge w = some e) (h2 : m.edge w' = some e) (hk : w.tet = w'.tet) :
    w = w' := by
  obtain ⟨k, c⟩ := w
  obtain ⟨k', c'⟩ := w'
  cases hk
  simp only [Mesh.edge, Option.map_eq_some_iff] at h1 h2
  obtain ⟨t, h3, rfl⟩ := h1
  obtain ⟨t', h4, h5⟩ := h2
  rw [h3] at h4
  cases h4
  have inj := hm.toT.distinct _ t h3
  have key : ∀ c c', firstIdx c = firstIdx c' → secondIdx c = secondIdx c' → c = c' := by decide
  simp only [Tet.edge, Prod.mk.injEq] at h5
  rw [key c' c (inj h5.1) (inj h5.2)]

/-- The tets around an edge. -/
theorem ring_allAt (hm : Consistent m) {l : List Walker} {a b : VId} (hne : l ≠ []) (hn : l.Nodup) (hl : ∀ x, x ∈ l ↔ m.edge x = some (a, b)) :
    AllAt m [a, b] (l.map (·.tet)) := by
  refine ⟨?_, ?_, by simpa using hne, ?_⟩
  · intro k hk
    obtain ⟨w, hw, rfl⟩ := List.mem_map.1 hk
    obtain ⟨c, d, h⟩ := edge_tet4 ((hl w).1 hw)
    obtain ⟨t, ht, -⟩ := Mesh.tet4_iff.1 h
    rw [ht]; rfl
  · exact hn.map_on fun x hx y hy he => walker_edge hm ((hl x).1 hx) ((hl y).1 hy) he
  · intro w x y z u hw
    constructor
    · intro h
      obtain ⟨w', hw', he⟩ := List.mem_map.1 h
      obtain ⟨c, d, h⟩ := edge_tet4 ((hl w').1 hw')
      have hs := tet4_same he h hw
      intro v hv
      refine (sameTet_hasV (v := v) hs).2 ?_
      simp only [HasV, List.mem_cons, List.not_mem_nil, or_false] at hv ⊢
      rcases hv with rfl | rfl <;> simp
    · intro hs
      have ha := hs (a := a) (by simp)
      have hb := hs (a := b) (by simp)
      obtain ⟨w0, h0⟩ := List.exists_mem_of_ne_nil l hne
      obtain ⟨c0, d0, h0⟩ := edge_tet4 ((hl w0).1 h0)
      have hn := hm.distinct _ _ _ _ _ h0
      simp only [List.nodup_cons, List.mem_cons, List.not_mem_nil, or_false, not_or] at hn
      obtain ⟨c, d, hs⟩ := two_of_four ha hb hn.1.1
      obtain ⟨w', h1, h2⟩ := tet4_write hw hs
      exact List.mem_map.2 ⟨w', (hl _).2 (tet4_parts h2).2.2.1, h1⟩

end

theorem ring_boundary (hm : Consistent m) (ht : Tiles m) {l : List Walker} {a b : VId} (hne : l ≠ []) (hn : l.Nodup)
    (hl : ∀ x, x ∈ l ↔ m.edge x = some (a, b)) :
    Boundary m (l.map (·.tet)) (l.flatMap fun w => [w.opp, w.perm P3210]) := by
  have hE := ring_allAt hm hne hn hl
  have hf : ∀ w ∈ l, m.fourth w.opp = some b ∧ m.fourth (w.perm P3210) = some a := by
    intro w hw
    obtain ⟨c, d, h⟩ := edge_tet4 ((hl w).1 hw)
    exact (three_fourth h).2
  have ht1 : ∀ w : Walker, w.opp.tet = w.tet := fun _ => rfl
  have ht2 : ∀ w : Walker, (w.perm P3210).tet = w.tet := fun _ => rfl
  have hab : a ≠ b := by
    obtain ⟨w0, h0⟩ := List.exists_mem_of_ne_nil l hne
    obtain ⟨c0, d0, h0⟩ := edge_tet4 ((hl w0).1 h0)
    have hn := hm.distinct _ _ _ _ _ h0
    simp only [List.nodup_cons, List.mem_cons, List.not_mem_nil, or_false, not_or] at hn
    exact hn.1.1
  refine hE.boundary hm ht ?_ ?_ ?_
  · intro x hx
    obtain ⟨w, hw, hx⟩ := List.mem_flatMap.1 hx
    have hf := hf w hw
    simp only [List.mem_cons, List.not_mem_nil, or_false] at hx
    rcases hx with rfl | rfl
    · exact ⟨List.mem_map.2 ⟨w, hw, rfl⟩, b, by simp, hf.1⟩
    · exact ⟨List.mem_map.2 ⟨w, hw, rfl⟩, a, by simp, hf.2⟩
  · intro k hk v hv
    obtain ⟨w, hw, rfl⟩ := List.mem_map.1 hk
    simp only [List.mem_cons, List.not_mem_nil, or_false] at hv
    rcases hv with rfl | rfl
    · exact ⟨w.perm P3210, List.mem_flatMap.2 ⟨w, hw, by simp⟩, rfl, (hf w hw).2⟩
    · exact ⟨w.opp, List.mem_flatMap.2 ⟨w, hw, by simp⟩, rfl, (hf w hw).1⟩
  · refine List.pairwise_flatMap.2 ⟨fun w hw => ?_, ?_⟩
    · simp only [List.pairwise_cons, List.mem_singleton, forall_eq, List.not_mem_nil, false_imp_iff, implies_true, List.Pairwise.nil, and_true]
      rintro ⟨-, h⟩
      rw [(hf w hw).1, (hf w hw).2, Option.some.injEq] at h
      exact hab h.symm
    · refine hn.imp_of_mem fun {w w'} hw hw' hne x hx y hy he => hne ?_
      refine walker_edge hm ((hl _).1 hw) ((hl _).1 hw') ?_
      have e1 : x.tet = w.tet := by
        simp only [List.mem_cons, List.not_mem_nil, or_false] at hx
        rcases hx with rfl | rfl <;> rfl
      have e2 : y.tet = w'.tet := by
        simp only [List.mem_cons, List.not_mem_nil, or_false] at hy
        rcases hy with rfl | rfl <;> rfl
      rw [← e1, ← e2]
      exact he.1

/-- The tets at a triangle. -/
theorem tri_allAt {P : Type} {m : Mesh P V T} (hm : Consistent m) {w w' : Walker} {a b c : VId} (hw : m.tri w = some (a, b, c)) (hw' : m.tri w' = some (b, a, c))
    (hne : w.tet ≠ w'.tet) : AllAt m [a, b, c] [w.tet, w'.tet] := by
  obtain ⟨d, h1⟩ := tri_tet4 hw
  obtain ⟨e, h2⟩ := tri_tet4 hw'
  have hn := hm.distinct _ _ _ _ _ h1
  simp only [List.nodup_cons, List.mem_cons, List.not_mem_nil, or_false, not_or] at hn
  refine ⟨?_, by simpa using hne, by simp, ?_⟩
  · intro k hk
    simp only [List.mem_cons, List.not_mem_nil, or_false] at hk
    obtain ⟨t, ht, -⟩ := Mesh.tet4_iff.1 h1
    obtain ⟨t', ht', -⟩ := Mesh.tet4_iff.1 h2
    rcases hk with rfl | rfl
    · rw [ht]; rfl
    · rw [ht']; rfl
  · intro x p q r s hx
    constructor
    · intro h v hv
      simp only [List.mem_cons, List.not_mem_nil, or_false] at h
      rcases h with h | h
      · refine (sameTet_hasV (v := v) (tet4_same h.symm h1 hx)).2 ?_
        simp only [HasV, List.mem_cons, List.not_mem_nil, or_false] at hv ⊢
        rcases hv with rfl | rfl | rfl <;> simp
      · refine (sameTet_hasV (v := v) (tet4_same h.symm h2 hx)).2 ?_
        simp only [HasV, List.mem_cons, List.not_mem_nil, or_false] at hv ⊢
        rcases hv with rfl | rfl | rfl <;> simp
    · intro hs
      obtain ⟨f, hf | hf⟩ := three_of_four (hs (a := a) (by simp)) (hs (a := b) (by simp)) (hs (a := c) (by simp)) hn.1.1 hn.1.2.1 hn.2.1.1
      · obtain ⟨y, k1, k2⟩ := tet4_write hx hf
        rcases hm.triUnique w y _ _ hw (tet4_parts k2).2.2.2 (.inl rfl) with rfl | rfl | rfl <;> simp [← k1, Walker.nfe, Walker.pfe]
      · obtain ⟨y, k1, k2⟩ := tet4_write hx hf
        rcases hm.triUnique w' y _ _ hw' (tet4_parts k2).2.2.2 (.inl rfl) with rfl | rfl | rfl <;> simp [← k1, Walker.nfe, Walker.pfe]

theorem tri_boundary (hm : Consistent m) (ht : Tiles m) {w w' o : Walker} {a b c x y z : VId} (hw : m.tri w = some (a, b, c))
    (ho : m.tri o = some (b, a, c)) (hne : w.tet ≠ w'.tet) (hk : w'.tet = o.tet) (hw' : m.tri w' = some (x, y, z))
    (hr : Rotation (b, a, c) (x, y, z)) :
    Boundary m [w.tet, w'.tet] [w.twin, w.opp, w.perm P3210, w'.twin, w'.opp, w'.perm P3210] := by
  obtain ⟨d, h1⟩ := tri_tet4 hw
  obtain ⟨e, h2⟩ := tri_tet4 hw'
  have hn := hm.distinct _ _ _ _ _ h1
  simp only [List.nodup_cons, List.mem_cons, List.not_mem_nil, or_false, not_or] at hn
  have hn' := hm.distinct _ _ _ _ _ h2
  simp only [List.nodup_cons, List.mem_cons, List.not_mem_nil, or_false, not_or] at hn'
  obtain ⟨f1, f2, f3⟩ := three_fourth h1
  obtain ⟨g1, g2, g3⟩ := three_fourth h2
  have hE : AllAt m [a, b, c] [w.tet, w'.tet] := hk ▸ tri_allAt hm hw ho (hk ▸ hne)
  have hmem : ∀ v, v ∈ [a, b, c] ↔ v = z ∨ v = y ∨ v = x := by
    intro v
    simp only [List.mem_cons, List.not_mem_nil, or_false]
    rcases hr with h | h | h <;> simp only [Prod.mk.injEq] at h <;> obtain ⟨rfl, rfl, rfl⟩ := h <;> tauto
  refine hE.boundary hm ht ?_ ?_ ?_
  · intro u hu
    simp only [List.mem_cons, List.not_mem_nil, or_false] at hu
    rcases hu with rfl | rfl | rfl | rfl | rfl | rfl
    · exact ⟨by simp [Walker.twin], c, by simp, f1⟩
    · exact ⟨by simp [Walker.opp], b, by simp, f2⟩
    · exact ⟨by simp [Walker.perm], a, by simp, f3⟩
    · exact ⟨by simp [Walker.twin], z, (hmem _).2 (by simp), g1⟩
    · exact ⟨by simp [Walker.opp], y, (hmem _).2 (by simp), g2⟩
    · exact ⟨by simp [Walker.perm], x, (hmem _).2 (by simp), g3⟩
  · intro k hk v hv
    have hv' := (hmem v).1 hv
    simp only [List.mem_cons, List.not_mem_nil, or_false] at hk hv
    rcases hk with rfl | rfl
    · rcases hv with rfl | rfl | rfl
      · exact ⟨w.perm P3210, by simp, rfl, f3⟩
      · exact ⟨w.opp, by simp, rfl, f2⟩
      · exact ⟨w.twin, by simp, rfl, f1⟩
    · rcases hv' with rfl | rfl | rfl
      · exact ⟨w'.twin, by simp, rfl, g1⟩
      · exact ⟨w'.opp, by simp, rfl, g2⟩
      · exact ⟨w'.perm P3210, by simp, rfl, g3⟩
  · have t1 : ∀ w : Walker, w.twin.tet = w.tet := fun _ => rfl
    have t2 : ∀ w : Walker, w.opp.tet = w.tet := fun _ => rfl
    have t3 : ∀ w : Walker, (w.perm P3210).tet = w.tet := fun _ => rfl
    simp only [List.pairwise_cons, List.mem_cons, List.not_mem_nil, or_false, forall_eq_or_imp, forall_eq, false_imp_iff, implies_true,
      List.Pairwise.nil, and_true, f1, f2, f3, g1, g2, g3, t1, t2, t3, Option.some.injEq]
    have n1 : b ≠ a := fun h => hn.1.1 h.symm
    have n2 : c ≠ a := fun h => hn.1.2.1 h.symm
    have n3 : c ≠ b := fun h => hn.2.1.1 h.symm
    have n4 : y ≠ x := fun h => hn'.1.1 h.symm
    have n5 : z ≠ x := fun h => hn'.1.2.1 h.symm
    have n6 : z ≠ y := fun h => hn'.2.1.1 h.symm
    simp [hne, n1, n2, n3, n4, n5, n6]

end Tet
