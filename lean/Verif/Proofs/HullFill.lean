import Verif.Proofs.TilingMesh

/-!
# The tets at the ghost vertex decide whether positive tets fill space
-/

namespace Tet
open Spec Vec4
variable {K V T : Type} [Field K] [LinearOrder K] [IsStrictOrderedRing K]

/-- Vectors in the cone of a solid tet have a positive last coordinate. -/
theorem Cell.last {h : VId → Vec4 K} {wt : Vec4 K →ₗ[K] K} (hs : ∀ v, v ≠ GHOST → 0 < wt (h v)) {a b c d : VId} {x : Vec4 K}
    (hD : 0 < D h (a, b, c, d)) (hc : Cell h (a, b, c, d) x) (hg : GHOST ∉ [a, b, c, d]) : 0 < wt x := by
  simp only [List.mem_cons, List.not_mem_nil, or_false, not_or] at hg
  obtain ⟨h1, h2, h3, h4⟩ := hc
  have e := congrArg wt (cramer (h a) (h b) (h c) (h d) x)
  simp only [map_add, map_smul, smul_eq_mul] at e
  have p1 := hs a (Ne.symm hg.1)
  have p2 := hs b (Ne.symm hg.2.1)
  have p3 := hs c (Ne.symm hg.2.2.1)
  have p4 := hs d (Ne.symm hg.2.2.2)
  have r1 : det x (h b) (h c) (h d) = det (h b) (h d) (h c) x := by simp only [det, det3]; ring
  have r2 : det (h a) x (h c) (h d) = det (h a) (h c) (h d) x := by simp only [det, det3]; ring
  have r3 : det (h a) (h b) x (h d) = det (h a) (h d) (h b) x := by simp only [det, det3]; ring
  rw [r1, r2, r3] at e
  refine (mul_pos_iff_of_pos_left hD).1 ?_
  rw [show D h (a, b, c, d) * wt x = _ from e]
  positivity

/-- Two consistent meshes with the same points and the same tets at the ghost vertex: if one of them fills space and the tets of the
other one are positive, the other one fills space too. -/
theorem hull_tiles {m m' : Mesh (Pt K) V T} (hm : Consistent m) (hm' : Consistent m') (hv : homv m' = homv m)
    (hgh : ∀ a b c d, GHOST ∈ [a, b, c, d] → (HasTet m' (a, b, c, d) ↔ HasTet m (a, b, c, d))) (ht : Tiles m) (hp : AllPositive m') : Tiles m' := by
  classical
  obtain ⟨ids, hids, hg, hs, h4⟩ := hm.glued
  obtain ⟨ids', hids', hg', hs', h4'⟩ := hm'.glued
  have pos : ∀ q, HasTet m q → 0 < D (homv m) q := fun q hq => ht.positive.pos hq
  have pos' : ∀ q, HasTet m' q → 0 < D (homv m) q := fun q hq => hv ▸ hp.pos hq
  have hin : ∀ k ∈ ids, HasTet m (tetAt m k) := fun k hk => ⟨_, (h4 k _).2 ⟨hk, rfl⟩⟩
  have hin' : ∀ k ∈ ids', HasTet m' (tetAt m' k) := fun k hk => ⟨_, (h4' k _).2 ⟨hk, rfl⟩⟩
  have refl : ∀ q : V4, SameTet q q := fun q => by
    obtain ⟨a, b, c, d⟩ := q
    exact mem_twelve.1 (by simp [twelve])
  -- a vector in no plane, on the other side
  obtain ⟨x, hx, hlast⟩ := near_free (h := homv m) (S := fun q => HasTet m q ∨ HasTet m' q) (G := [-last4]) (y := Pi.single 3 (-1)) (z := 0)
    ((tets_finite m).union (tets_finite m')) (fun q hq => hq.elim (pos q) (pos' q)) (by
      intro g hg
      rw [List.mem_singleton] at hg
      subst hg
      left
      simp [last4])
  have hneg : last4 x < 0 := by simpa using hlast _ (List.mem_singleton.2 rfl)
  have solids : ∀ v, v ≠ GHOST → 0 < last4 (homv m v) := fun v hv => by simpa using homv_solids m v hv
  have ghost : ∀ {a b c d : VId}, 0 < D (homv m) (a, b, c, d) → Cell (homv m) (a, b, c, d) x → GHOST ∈ [a, b, c, d] := fun h1 h2 => by
    by_contra h3
    exact lt_asymm hneg (Cell.last solids h1 h2 h3)
  -- in the first mesh it is in one tet
  obtain ⟨p, hpo⟩ : ∃ p, OffPlanes m p := by
    obtain ⟨y, hy, h1⟩ := near_free (h := homv m) (S := HasTet m) (G := [last4]) (y := Pi.single 3 1) (z := 0) (tets_finite m) pos (by
      intro g hg
      rw [List.mem_singleton] at hg
      subst hg
      left
      simp [last4])
    have h2 : 0 < y 3 := h1 _ (List.mem_singleton.2 rfl)
    refine ⟨⟨y 0 / y 3, y 1 / y 3, y 2 / y 3⟩, (hm.toT.placed.offPlanes _).2 fun q hq h3 => hy q hq ?_⟩
    have : y = y 3 • hom ⟨y 0 / y 3, y 1 / y 3, y 2 / y 3⟩ := by
      funext i
      fin_cases i <;> simp [hom, mul_div_cancel₀ _ h2.ne']
    rw [this, map_smul, h3, smul_zero]
  have one : (holders (homv m) ids (tetAt m) x).card = 1 := by
    rw [count_const hg (fun k hk => pos _ (hin k hk)) (y := hom p) (by rw [hs]; exact fun q hq => hx q (.inl hq))
      (by rw [hs]; exact (hm.toT.placed.offPlanes p).1 hpo), ← layers_eq hm h4]
    exact ht.layer hm hpo
  obtain ⟨k, hk⟩ := Finset.card_eq_one.1 one
  have hkm : ∀ j, j ∈ ids ∧ Cell (homv m) (tetAt m j) x ↔ j = k := by
    intro j
    have := Finset.ext_iff.1 hk j
    simpa only [holders, Finset.mem_filter, Finset.mem_singleton] using this
  have hk1 := (hkm k).2 rfl
  -- so it is in the other one
  have one' : (holders (homv m') ids' (tetAt m') x).card = 1 := by
    rw [hv, Finset.card_eq_one]
    have h5 : HasTet m' (tetAt m k) := (hgh _ _ _ _ (ghost (pos _ (hin k hk1.1)) hk1.2)).2 (hin k hk1.1)
    rw [← hs'] at h5
    obtain ⟨k', h6, h7⟩ := h5
    refine ⟨k', Finset.ext fun j => ?_⟩
    simp only [holders, Finset.mem_filter, Finset.mem_singleton]
    constructor
    · rintro ⟨j1, j2⟩
      have h8 : HasTet m (tetAt m' j) := (hgh _ _ _ _ (ghost (pos' _ (hin' j j1)) j2)).1 (hin' j j1)
      rw [← hs] at h8
      obtain ⟨i, h9, h10⟩ := h8
      obtain rfl := (hkm i).1 ⟨h9, (Cell_same h10).1 j2⟩
      exact hg'.uniq j j1 k' h6 _ _ _ _ _ (refl _) (SameTet.trans' h7 h10)
    · rintro rfl
      exact ⟨h6, (Cell_same h7).1 hk1.2⟩
  rw [tiles_iff hm'.toT.placed, ← hs']
  refine hg'.fan (fun k hk => hp.pos (hin' k hk)) (x := x) ?_ one' _
  rw [hs', hv]
  exact fun q hq => hx q (.inr hq)

/-- Replacing solid tets by positive solid tets. -/
theorem Spec.Replaces.tiles {m m' : Mesh (Pt K) V T} (hm : Consistent m) (hm' : Consistent m') {old new : List V4} (hr : Replaces m m' old new)
    (hv : homv m' = homv m) (ho : ∀ q ∈ old ++ new, GHOST ∉ [q.1, q.2.1, q.2.2.1, q.2.2.2]) (hn : ∀ q ∈ new, Mesh.positive m q = true)
    (ht : Tiles m) : Tiles m' := by
  have mem : ∀ {p q : V4}, SameTet p q → GHOST ∈ [q.1, q.2.1, q.2.2.1, q.2.2.2] → GHOST ∈ [p.1, p.2.1, p.2.2.1, p.2.2.2] :=
    fun h h1 => (SameTet.mem h _).2 h1
  refine hull_tiles hm hm' hv (fun a b c d hg => ?_) ht fun a b c d hq => ?_
  · rw [hr.2]
    constructor
    · rintro (h | ⟨p, hp, hs⟩)
      · exact h.1
      · exact absurd (mem hs hg) (ho p (List.mem_append.2 (.inr hp)))
    · exact fun h => .inl ⟨h, fun p hp hs => ho p (List.mem_append.2 (.inl hp)) (mem hs hg)⟩
  · obtain ⟨s, hs⟩ := hm'.toT.placed.orient hq
    refine ⟨s, hs, ?_⟩
    rw [← orient_D hs, hv]
    rcases (hr.2 _).1 hq with h | ⟨p, hp, h⟩
    · exact ht.positive.pos h.1
    · rw [D_same h]
      exact positive_D (hn p hp)

end Tet
