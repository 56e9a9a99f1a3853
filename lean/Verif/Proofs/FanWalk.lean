import Mathlib.Logic.Relation
import Verif.Proofs.TilingMesh

/-!
# Walking from tet to tet along a segment; the tets at a vertex are connected
-/

namespace Tet
open Spec Vec4
variable {K V T : Type} [Field K] [LinearOrder K] [IsStrictOrderedRing K]
variable {h : VId → Vec4 K} {ids : Finset Nat} {Q : Nat → V4}

/-- From one tet to the next one along a segment, through triangles that contain points of it. -/
theorem Glued.walk (hg : Glued ids Q) (pos : ∀ k ∈ ids, 0 < D h (Q k)) {y : Vec4 K} (hy : Free h (Shown ids Q) y)
    {N : Vec4 K → Prop} {R : Nat → Nat → Prop} (hR : ∀ k ∈ ids, ∀ k' ∈ ids, ∀ a b c d z x, SameTet (Q k) (a, b, c, d) →
      SameTet (Q k') (b, a, c, z) → InTri (h a) (h b) (h c) x → N x → R k k') :
    ∀ (n : Nat) (x : Vec4 K), Free h (Shown ids Q) x → Avoids h (Shown ids Q) x y →
      (∀ t : K, 0 ≤ t → t ≤ 1 → N (x + t • (y - x))) → crossed h ids Q x y = n →
      ∀ k ∈ ids, Cell h (Q k) x → ∃ k' ∈ ids, Cell h (Q k') y ∧ Relation.ReflTransGen R k k' := by
  intro n
  induction n using Nat.strong_induction_on with
  | _ n ih =>
    intro x hx hclear hN hn k hk hc
    rcases segment_step pos hx hy hclear with h1 | ⟨t0, t1, h0, h1, h2, hcross, hlt⟩
    · exact ⟨k, hk, Cell_iff.2 fun q hq => (h1 q ⟨k, hk, hq⟩).1 (Cell_iff.1 hc q hq), .refl⟩
    · have later : ∀ t : K, 0 ≤ t → t ≤ 1 → N (x + t1 • (y - x) + t • (y - (x + t1 • (y - x)))) := by
        intro t i0 i1
        have : x + t1 • (y - x) + t • (y - (x + t1 • (y - x))) = x + (t1 + t * (1 - t1)) • (y - x) := by module
        rw [this]
        have k1 := mul_nonneg i0 (by linarith : 0 ≤ 1 - t1)
        have k2 := mul_le_mul_of_nonneg_right i1 (by linarith : 0 ≤ 1 - t1)
        exact hN _ (by linarith) (by linarith)
      have go := ih _ (by rw [← hn]; exact hlt) _ hcross.after (hclear.later (by linarith) h2.le) later rfl
      by_cases hc' : Cell h (Q k) (x + t1 • (y - x))
      · exact go k hk hc'
      · obtain ⟨a, b, c, d, hs, hin, hen⟩ := hcross.enters pos hk hc hc'
        obtain ⟨k', hk', z, hz⟩ := hg.adj k hk a b c d hs
        obtain ⟨k'', j1, j2, j3⟩ := go k' hk' (hen k' hk' z hz)
        exact ⟨k'', j1, j2, .head (hR k hk k' hk' a b c d z _ hs hz hin (hN _ h0.le (by linarith))) j3⟩

/-- The tet has the vertex. -/
def HasV (p : V4) (v : VId) : Prop := v ∈ [p.1, p.2.1, p.2.2.1, p.2.2.2]

/-- Through a triangle with the vertex, from one tet to the next one. -/
def StarStep (ids : Finset Nat) (Q : Nat → V4) (v : VId) (k k' : Nat) : Prop :=
  k ∈ ids ∧ k' ∈ ids ∧ ∃ a b d z, SameTet (Q k) (v, a, b, d) ∧ SameTet (Q k') (a, v, b, z)

theorem sameTet_hasV {p q : V4} {v : VId} (hs : SameTet p q) : HasV q v ↔ HasV p v := by
  obtain ⟨a, b, c, d⟩ := p
  obtain ⟨a', b', c', d'⟩ := q
  simp only [HasV, List.mem_cons, List.not_mem_nil, or_false]
  exact ⟨sameTet_in (SameTet.symm' hs), sameTet_in hs⟩

/-- The tets at a vertex are connected. -/
theorem Glued.star (hg : Glued ids Q) (pos : ∀ k ∈ ids, 0 < D h (Q k)) {x0 : Vec4 K} (hx0 : Free h (Shown ids Q) x0)
    (h1 : (holders h ids Q x0).card = 1) {v : VId} {k k' : Nat} (hk : k ∈ ids) (hk' : k' ∈ ids) (hv : HasV (Q k) v)
    (hv' : HasV (Q k') v) : Relation.ReflTransGen (StarStep ids Q v) k k' := by
  classical
  let L := (faceList h ids Q).filter fun f => decide (f (h v) ≠ 0)
  let sg : (Vec4 K →ₗ[K] K) → Vec4 K →ₗ[K] K := fun f => if 0 < f (h v) then f else -f
  have sgv : ∀ f ∈ L, 0 < sg f (h v) := by
    intro f hf
    have hf : f (h v) ≠ 0 := by simpa [L] using (List.mem_filter.1 hf).2
    simp only [sg]
    split_ifs with h2
    · exact h2
    · rw [LinearMap.neg_apply, neg_pos]
      exact lt_of_le_of_ne (not_lt.1 h2) hf
  -- near the vertex inside a tet
  have near_v : ∀ k ∈ ids, HasV (Q k) v → ∀ g ∈ (twelve (Q k)).map (F h) ++ L.map sg,
      0 < g (h v) ∨ g (h v) = 0 ∧ 0 < g (h (Q k).1 + h (Q k).2.1 + h (Q k).2.2.1 + h (Q k).2.2.2) := by
    intro k hk hv g hgm
    rcases List.mem_append.1 hgm with hgm | hgm
    · obtain ⟨q, hq, rfl⟩ := List.mem_map.1 hgm
      have hq := mem_twelve.1 hq
      have hD := pos k hk
      have hDq : 0 < F h q (h q.2.2.2) := by
        have : 0 < D h q := by rwa [D_same hq]
        exact this
      have nn : ∀ u, HasV (Q k) u → 0 ≤ F h q (h u) := by
        intro u hu
        obtain ⟨x, y, z, w⟩ := q
        have := (sameTet_hasV hq (v := u)).2 hu
        simp only [HasV, List.mem_cons, List.not_mem_nil, or_false] at this
        rcases this with rfl | rfl | rfl | rfl
        · exact (self0 (h u) (h y) (h z)).ge
        · exact (self1 (h x) (h u) (h z)).ge
        · exact (self2 (h x) (h y) (h u)).ge
        · exact hDq.le
      rcases (nn v hv).lt_or_eq with h2 | h2
      · exact .inl h2
      · refine .inr ⟨h2.symm, ?_⟩
        rw [map_add, map_add, map_add]
        have n1 := nn (Q k).1 (by simp [HasV])
        have n2 := nn (Q k).2.1 (by simp [HasV])
        have n3 := nn (Q k).2.2.1 (by simp [HasV])
        have n4 := nn (Q k).2.2.2 (by simp [HasV])
        have : HasV (Q k) q.2.2.2 := (sameTet_hasV hq).1 (by simp [HasV])
        simp only [HasV, List.mem_cons, List.not_mem_nil, or_false] at this
        rcases this with h3 | h3 | h3 | h3 <;> rw [h3] at hDq <;> linarith
    · obtain ⟨f, hf, rfl⟩ := List.mem_map.1 hgm
      exact .inl (sgv f hf)
  have nz : ∀ f ∈ faceList h ids Q, f ≠ 0 := by
    intro f hf
    obtain ⟨q, ⟨k, hk, hq⟩, rfl⟩ := mem_faceList.1 hf
    exact F_ne (by rw [D_same hq]; exact (pos k hk).ne')
  obtain ⟨x, hx, hxG⟩ := near_small (faceList h ids Q) _ _ _ nz (near_v k hk hv)
  have hxf : Free h (Shown ids Q) x := fun q hq => hx _ (mem_faceList.2 ⟨q, hq, rfl⟩)
  have hall : ∀ q, q ∈ full ((ids.sort (· ≤ ·)).map Q) ↔ Shown ids Q q := by
    intro q
    simp only [List.mem_map, mem_full, Shown, exists_exists_and_eq_and, Finset.mem_sort]
  obtain ⟨y, hy, hyG⟩ := near_small (faceList h ids Q ++ (full ((ids.sort (· ≤ ·)).map Q)).map fun q => fun3 (h q.1) (h q.2.1) x)
    _ _ _ (by
      intro f hf
      rcases List.mem_append.1 hf with hf | hf
      · exact nz f hf
      · intro h0
        obtain ⟨⟨a, b, c, d⟩, hq, rfl⟩ := List.mem_map.1 hf
        have h1 := hxf _ ((hall _).1 hq)
        have h3 : det (h a) (h b) x (h c) = 0 := LinearMap.congr_fun h0 (h c)
        refine h1 ?_
        change det (h a) (h b) (h c) x = 0
        rw [swap2, h3, neg_zero]) (near_v k' hk' hv')
  have hyf : Free h (Shown ids Q) y := fun q hq => hy _ (List.mem_append_left _ (mem_faceList.2 ⟨q, hq, rfl⟩))
  have hclear : Clear h (Shown ids Q) x y := fun a b c d hS =>
    hy _ (List.mem_append_right _ (List.mem_map.2 ⟨(a, b, c, d), (hall _).2 hS, rfl⟩))
  have cx : Cell h (Q k) x := Cell_iff.2 fun q hq => hxG _ (List.mem_append_left _ (List.mem_map_of_mem (mem_twelve.2 hq)))
  have cy : Cell h (Q k') y := Cell_iff.2 fun q hq => hyG _ (List.mem_append_left _ (List.mem_map_of_mem (mem_twelve.2 hq)))
  let N : Vec4 K → Prop := fun z => ∀ f ∈ L, 0 < sg f z
  have hN : ∀ t : K, 0 ≤ t → t ≤ 1 → N (x + t • (y - x)) := by
    intro t t0 t1 f hf
    have k1 := hxG _ (List.mem_append_right _ (List.mem_map_of_mem hf))
    have k2 := hyG _ (List.mem_append_right _ (List.mem_map_of_mem hf))
    rw [map_add, map_smul, map_sub, smul_eq_mul]
    have : sg f x + t * (sg f y - sg f x) = (1 - t) * sg f x + t * sg f y := by ring
    rw [this]
    rcases t0.lt_or_eq with t0 | rfl
    · have := mul_nonneg (by linarith : 0 ≤ 1 - t) k1.le
      have := mul_pos t0 k2
      linarith
    · linarith
  let R : Nat → Nat → Prop := fun k k' => HasV (Q k) v → StarStep ids Q v k k'
  obtain ⟨k2, hk2, c2, hr⟩ := hg.walk pos hyf (N := N) (R := R) (by
    intro k hk k' hk' a b c d z x hs hs' hin hNx hv
    have hS : Shown ids Q (a, b, c, d) := ⟨k, hk, hs⟩
    have hv := (sameTet_hasV hs).2 hv
    simp only [HasV, List.mem_cons, List.not_mem_nil, or_false] at hv
    refine ⟨hk, hk', ?_⟩
    rcases hv with rfl | rfl | rfl | rfl
    · exact ⟨b, c, d, z, hs, hs'⟩
    · exact ⟨c, a, d, z, SameTet.trans' hs (mem_twelve.1 (by simp [twelve])), SameTet.trans' hs' (mem_twelve.1 (by simp [twelve]))⟩
    · exact ⟨a, b, d, z, SameTet.trans' hs (mem_twelve.1 (by simp [twelve])), SameTet.trans' hs' (mem_twelve.1 (by simp [twelve]))⟩
    · exfalso
      have hD : 0 < F h (a, b, c, v) (h v) := by
        have : 0 < D h (a, b, c, v) := by rw [D_same hs]; exact pos k hk
        exact this
      have := hNx (F h (a, b, c, v)) (List.mem_filter.2 ⟨mem_faceList.2 ⟨_, hS, rfl⟩, by simpa using hD.ne'⟩)
      simp only [sg, if_pos hD, hin.plane] at this
      exact lt_irrefl _ this) _ x hxf hclear.avoids hN rfl k hk cx
  have e : k2 = k' := by
    have h3 := count_const hg pos hx0 hyf
    rw [h1] at h3
    obtain ⟨k3, hk3⟩ := Finset.card_eq_one.1 h3.symm
    have mem : ∀ j, j ∈ ids → Cell h (Q j) y → j = k3 := by
      intro j h4 h5
      have : j ∈ holders h ids Q y := Finset.mem_filter.2 ⟨h4, h5⟩
      rw [hk3] at this
      simpa using this
    rw [mem k2 hk2 c2, mem k' hk' cy]
  subst e
  have : Relation.ReflTransGen (StarStep ids Q v) k k2 ∧ HasV (Q k2) v := by
    clear c2 cy hv' hk' hk2 hyG hy hyf hclear hN
    induction hr with
    | refl => exact ⟨.refl, hv⟩
    | tail _ hl ih =>
      obtain ⟨i1, i2⟩ := ih
      have := hl i2
      refine ⟨i1.tail this, ?_⟩
      obtain ⟨-, -, a, b, d, z, -, hs⟩ := this
      exact (sameTet_hasV hs).1 (by simp [HasV])
  exact this.1

/-- In a mesh that fills space the tets at a vertex are connected. -/
theorem Spec.Tiles.star {m : Mesh (Pt K) V T} (ht : Tiles m) (hm : Consistent m) (v : VId) : StarConnected m v := by
  intro w w' hw hw'
  obtain ⟨ids, hids, hg, hs, h4⟩ := hm.glued
  have pos : ∀ k ∈ ids, 0 < D (homv m) (tetAt m k) := fun k hk => ht.positive.pos ⟨_, (h4 k _).2 ⟨hk, rfl⟩⟩
  -- some point
  have hone : ∃ x0, Free (homv m) (Shown ids (tetAt m)) x0 ∧ (holders (homv m) ids (tetAt m) x0).card = 1 := by
    have fin : {q | Shown ids (tetAt m) q}.Finite := by rw [hs]; exact tets_finite m
    obtain ⟨x, hx, hG⟩ := near_free (G := [last4]) (y := hom ⟨0, 0, 0⟩) (z := 0) (h := homv m) fin
      (by rw [hs]; exact fun q hq => ht.positive.pos hq) (by
        intro g hg'
        left
        simp only [List.mem_cons, List.not_mem_nil, or_false] at hg'
        subst hg'
        simp [last4, hom])
    have hx3 : 0 < x 3 := hG last4 (by simp)
    obtain ⟨p, hpx⟩ : ∃ p : Pt K, x = x 3 • hom p := by
      refine ⟨⟨x 0 / x 3, x 1 / x 3, x 2 / x 3⟩, ?_⟩
      funext i
      fin_cases i <;> simp [hom, mul_div_cancel₀, hx3.ne']
    have hF : ∀ q, F (homv m) q x = x 3 * F (homv m) q (hom p) := by
      intro q
      conv_lhs => rw [hpx]
      rw [map_smul, smul_eq_mul]
    have hfree : Free (homv m) (Shown ids (tetAt m)) (hom p) := fun q hq h0 => hx q hq (by rw [hF, h0, mul_zero])
    refine ⟨hom p, hfree, ?_⟩
    rw [← layers_eq hm h4]
    exact ht.layer hm ((hm.toT.placed.offPlanes p).2 (by rw [← hs]; exact hfree))
  obtain ⟨x0, hx0, h1⟩ := hone
  have at_ : ∀ {w : Walker}, m.first w = some v → w.tet ∈ ids ∧ HasV (tetAt m w.tet) v := by
    intro w hw
    obtain ⟨a, b, c, hd⟩ := star_tet4 hw
    obtain ⟨t, htt, -⟩ := Mesh.tet4_iff.1 hd
    have hk : w.tet ∈ ids := (hids _).2 (by rw [htt]; rfl)
    refine ⟨hk, ?_⟩
    have := tet4_same (w := Mesh.walkerFromTetId w.tet) (w' := w) rfl ((h4 _ _).2 ⟨hk, rfl⟩) hd
    exact (sameTet_hasV this).1 (by simp [HasV])
  obtain ⟨i1, i2⟩ := at_ hw
  obtain ⟨j1, j2⟩ := at_ hw'
  have hr := hg.star pos hx0 h1 i1 j1 i2 j2
  generalize w'.tet = k' at *
  clear j1 j2 hw'
  induction hr with
  | refl => exact .refl
  | tail _ hl ih =>
    obtain ⟨k1, k2, a, b, d, z, s1, s2⟩ := hl
    obtain ⟨u, hu, hut⟩ := tet4_write ((h4 _ _).2 ⟨k1, rfl⟩) s1
    have hu : u.tet = _ := hu
    obtain ⟨u', z', ha, -, hz⟩ := toAcross hm hut
    have hrr := StarReach.cross (k0 := w.tet) (by rw [hu]; exact ih) (tet4_parts hut).1 ha
    obtain ⟨u2, hu2, hut2⟩ := tet4_write ((h4 _ _).2 ⟨k2, rfl⟩) s2
    have e : u'.tet = u2.tet := by
      rcases hm.triUnique _ _ _ _ (tet4_parts hz).2.2.2 (tet4_parts hut2).2.2.2 (by left; rfl) with r | r | r <;> rw [r] <;> rfl
    have hu2 : u2.tet = _ := hu2
    rw [e, hu2] at hrr
    exact hrr

end Tet
