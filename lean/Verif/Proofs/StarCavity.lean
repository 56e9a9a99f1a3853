import Verif.Proofs.FanWalk

/-!
# Tets whose surface can be seen from a point

All of this is about finitely many positively oriented tets that are glued together along all triangles and cover everything
once, and some of these tets, whose outer triangles all have the vector `s` on their inner side.
-/

namespace Tet
open Spec Vec4
variable {K : Type} [Field K] [LinearOrder K] [IsStrictOrderedRing K]
variable {h : VId → Vec4 K} {ids : Finset Nat} {Q : Nat → V4}

/-- From one tet to the next one along a segment, for tets of which only those with `I` need to be glued together, and
only near the segment. -/
theorem walk_to (pos : ∀ k ∈ ids, 0 < D h (Q k)) {y : Vec4 K} (hy : Free h (Shown ids Q) y)
    {N : Vec4 K → Prop} {I : Nat → Prop} {R : Nat → Nat → Prop}
    (hR : ∀ k ∈ ids, I k → ∀ a b c d x, SameTet (Q k) (a, b, c, d) → InTri (h a) (h b) (h c) x → N x →
      F h (a, b, c, d) y < 0 → ∃ k' ∈ ids, ∃ z, SameTet (Q k') (b, a, c, z) ∧ I k' ∧ R k k') :
    ∀ (n : Nat) (x : Vec4 K), Free h (Shown ids Q) x → Avoids h (Shown ids Q) x y →
      (∀ t : K, 0 ≤ t → t ≤ 1 → N (x + t • (y - x))) → crossed h ids Q x y = n →
      ∀ k ∈ ids, I k → Cell h (Q k) x → ∃ k' ∈ ids, Cell h (Q k') y ∧ Relation.ReflTransGen R k k' := by
  intro n
  induction n using Nat.strong_induction_on with
  | _ n ih =>
    intro x hx hclear hN hn k hk hI hc
    rcases segment_step pos hx hy hclear with h1 | ⟨t0, t1, h0, h1, h2, hcross, hlt⟩
    · exact ⟨k, hk, Cell_iff.2 fun q hq => (h1 q ⟨k, hk, hq⟩).1 (Cell_iff.1 hc q hq), .refl⟩
    · have later : ∀ t : K, 0 ≤ t → t ≤ 1 → N (x + t1 • (y - x) + t • (y - (x + t1 • (y - x)))) := by
        intro t i0 i1
        have : x + t1 • (y - x) + t • (y - (x + t1 • (y - x))) = x + (t1 + t * (1 - t1)) • (y - x) := by module
        rw [this]
        have k1 := mul_nonneg i0 (by linarith : 0 ≤ 1 - t1)
        have k2 := mul_le_mul_of_nonneg_right i1 (by linarith : 0 ≤ 1 - t1)
        exact hN _ (by linarith) (by linarith)
      have go := ih _ (by rw [← hn]; exact hlt) _ hcross.after (hclear.later (by linarith) h2.le) later rfl
      by_cases hc' : Cell h (Q k) (x + t1 • (y - x))
      · exact go k hk hI hc'
      · obtain ⟨a, b, c, d, hs, hin, hen⟩ := hcross.enters pos hk hc hc'
        have hneg : F h (a, b, c, d) y < 0 := by
          have p1 := Cell_iff.1 hc _ hs
          have p2 : F h (a, b, c, d) (x + t0 • (y - x)) = 0 := hin.plane
          rw [map_add, map_smul, map_sub, smul_eq_mul] at p2
          by_contra hn
          have := mul_nonneg h0.le (not_lt.1 hn)
          have := mul_pos (by linarith : 0 < 1 - t0) p1
          linarith
        obtain ⟨k', hk', z, hz, hI', hR'⟩ := hR k hk hI a b c d _ hs hin (hN _ h0.le (by linarith)) hneg
        obtain ⟨k'', j1, j2, j3⟩ := go k' hk' hI' (hen k' hk' z hz)
        exact ⟨k'', j1, j2, .head hR' j3⟩

/-- Tets whose outer triangles can be seen from `s`, among tets that cover everything once. -/
structure StarAt (h : VId → Vec4 K) (ids : Finset Nat) (Q : Nat → V4) (E : Nat → Prop) (s : Vec4 K) : Prop where
  glued : Glued ids Q
  pos : ∀ k ∈ ids, 0 < D h (Q k)
  one : ∀ x, Free h (Shown ids Q) x → (holders h ids Q x).card = 1
  seen : ∀ k ∈ ids, E k → ∀ k' ∈ ids, ¬ E k' → ∀ a b c d z, SameTet (Q k) (a, b, c, d) → SameTet (Q k') (b, a, c, z) →
    0 < det (h a) (h b) (h c) s
  rest : ∃ k ∈ ids, ¬ E k

/-- The triangle leads out of the tets. -/
def OutTri (ids : Finset Nat) (Q : Nat → V4) (E : Nat → Prop) (a b c : VId) : Prop :=
  ∃ k ∈ ids, E k ∧ ∃ d, SameTet (Q k) (a, b, c, d) ∧ ∃ k' ∈ ids, ¬ E k' ∧ ∃ z, SameTet (Q k') (b, a, c, z)

/-- The vector is in general position, also as seen from `s`. -/
def Gen (h : VId → Vec4 K) (S : V4 → Prop) (s x : Vec4 K) : Prop :=
  Free h S x ∧ ∀ a b c d, S (a, b, c, d) → fun3 (h a) (h b) s ≠ 0 → det (h a) (h b) s x ≠ 0

omit [IsStrictOrderedRing K] in
theorem Gen.avoids {S : V4 → Prop} {s x : Vec4 K} (hx : Gen h S s x) (r : K) : Avoids h S x (x - r • s) := by
  intro a b c d hS t _ _ k l he
  have e : x = k • h a + l • h b + (t * r) • s := by rw [← he]; module
  have n1 := hx.1 _ hS
  by_cases h0 : fun3 (h a) (h b) s = 0
  · refine n1 ?_
    have : det (h a) (h b) s (h c) = 0 := LinearMap.congr_fun h0 (h c)
    change det (h a) (h b) (h c) x = 0
    rw [e, det_add, det_add, det_smul, det_smul, det_smul, self0, self1, swap2, this]
    ring
  · refine hx.2 a b c d hS h0 ?_
    rw [e, det_add, det_add, det_smul, det_smul, det_smul, self0, self1, self2]
    ring

omit [IsStrictOrderedRing K] in
theorem Gen.move {S : V4 → Prop} {s x : Vec4 K} (hx : Gen h S s x) {r : K} (hf : Free h S (x - r • s)) : Gen h S s (x - r • s) := by
  refine ⟨hf, fun a b c d hS h0 => ?_⟩
  rw [sub_eq_add_neg, det_add, det_neg, det_smul, self2, mul_zero, neg_zero, add_zero]
  exact hx.2 a b c d hS h0

namespace StarAt
variable {E : Nat → Prop} {s : Vec4 K}

theorem unique (St : StarAt h ids Q E s) {x : Vec4 K} (hx : Free h (Shown ids Q) x) {k k' : Nat} (hk : k ∈ ids) (hk' : k' ∈ ids)
    (hc : Cell h (Q k) x) (hc' : Cell h (Q k') x) : k = k' := by
  classical
  obtain ⟨k3, hk3⟩ := Finset.card_eq_one.1 (St.one x hx)
  have mem : ∀ j, j ∈ ids → Cell h (Q j) x → j = k3 := by
    intro j h4 h5
    have : j ∈ holders h ids Q x := Finset.mem_filter.2 ⟨h4, h5⟩
    rw [hk3] at this
    simpa using this
  rw [mem k hk hc, mem k' hk' hc']

theorem covered (St : StarAt h ids Q E s) {x : Vec4 K} (hx : Free h (Shown ids Q) x) : ∃ k ∈ ids, Cell h (Q k) x := by
  classical
  obtain ⟨k3, hk3⟩ := Finset.card_eq_one.1 (St.one x hx)
  have : k3 ∈ holders h ids Q x := by rw [hk3]; simp
  exact ⟨k3, (Finset.mem_filter.1 this).1, (Finset.mem_filter.1 this).2⟩

theorem out_pos (St : StarAt h ids Q E s) {a b c : VId} (ho : OutTri ids Q E a b c) : 0 < det (h a) (h b) (h c) s := by
  obtain ⟨k, hk, hE, d, hs, k', hk', hE', z, hz⟩ := ho
  exact St.seen k hk hE k' hk' hE' a b c d z hs hz

/-- Away from `s` the tets are never entered. -/
theorem no_enter (St : StarAt h ids Q E s) {x : Vec4 K} (hx : Gen h (Shown ids Q) s x) {r : K} (hr : 0 ≤ r)
    (hf : Free h (Shown ids Q) (x - r • s)) {k k' : Nat} (hk : k ∈ ids) (hk' : k' ∈ ids) (hc : Cell h (Q k) x)
    (hc' : Cell h (Q k') (x - r • s)) (hE : ¬ E k) : ¬ E k' := by
  obtain ⟨k2, h2, c2, hR⟩ := walk_to St.pos hf (N := fun p => ∃ t, 0 ≤ t ∧ t ≤ 1 ∧ p = x - (t * r) • s) (I := fun _ => True)
    (R := fun k k' => ¬ E k → ¬ E k') (by
      rintro k hk - a b c d p hs hin ⟨t, t0, t1, rfl⟩ hn
      obtain ⟨k', hk', z, hz⟩ := St.glued.adj k hk a b c d hs
      refine ⟨k', hk', z, hz, trivial, fun h1 h2 => ?_⟩
      have p1 := St.seen k' hk' h2 k hk h1 b a c z d hz (SameTet.trans' hs (mem_twelve.1 (by simp [twelve])))
      have p2 : det (h a) (h b) (h c) (x - (t * r) • s) = 0 := hin.plane (d := d)
      have p3 : det (h a) (h b) (h c) (x - r • s) < 0 := hn
      rw [Vec4.swap0] at p1
      rw [sub_eq_add_neg, det_add, det_neg, det_smul] at p2 p3
      have := mul_nonneg (mul_nonneg (by linarith : 0 ≤ 1 - t) hr) p1.le
      linarith) _ x hx.1 (hx.avoids r) (by
      intro t t0 t1
      exact ⟨t, t0, t1, by module⟩) rfl k hk trivial hc
  have e := St.unique hf h2 hk' c2 hc'
  subst e
  clear c2 hc' h2 hk'
  induction hR with
  | refl => exact hE
  | tail _ hl ih => exact hl ih

/-- A vector inside a tet, in general position to another one. -/
theorem inside (St : StarAt h ids Q E s) {k : Nat} (hk : k ∈ ids) {x : Vec4 K} (hx : Free h (Shown ids Q) x) :
    ∃ y, Free h (Shown ids Q) y ∧ Clear h (Shown ids Q) x y ∧ Cell h (Q k) y := by
  classical
  have hall : ∀ q, q ∈ full ((ids.sort (· ≤ ·)).map Q) ↔ Shown ids Q q := by
    intro q
    simp only [List.mem_map, mem_full, Shown, exists_exists_and_eq_and, Finset.mem_sort]
  have hD := St.pos k hk
  obtain ⟨y, hy, hyG⟩ := near_small (faceList h ids Q ++ (full ((ids.sort (· ≤ ·)).map Q)).map fun q => fun3 (h q.1) (h q.2.1) x)
    ((twelve (Q k)).map (F h)) (h (Q k).1 + h (Q k).2.1 + h (Q k).2.2.1 + h (Q k).2.2.2) 0 (by
      intro f hf
      rcases List.mem_append.1 hf with hf | hf
      · obtain ⟨q, ⟨k, hk, hq⟩, rfl⟩ := mem_faceList.1 hf
        exact F_ne (by rw [D_same hq]; exact (St.pos k hk).ne')
      · intro h0
        obtain ⟨⟨a, b, c, d⟩, hq, rfl⟩ := List.mem_map.1 hf
        have h1 := hx _ ((hall _).1 hq)
        have h3 : det (h a) (h b) x (h c) = 0 := LinearMap.congr_fun h0 (h c)
        refine h1 ?_
        change det (h a) (h b) (h c) x = 0
        rw [swap2, h3, neg_zero]) (by
      intro g hg
      obtain ⟨q, hq, rfl⟩ := List.mem_map.1 hg
      left
      have hq := mem_twelve.1 hq
      have hDq : 0 < F h q (h q.2.2.2) := by
        have : 0 < D h q := by rwa [D_same hq]
        exact this
      have nn : ∀ u, HasV (Q k) u → 0 ≤ F h q (h u) := by
        intro u hu
        obtain ⟨x, y, z, w⟩ := q
        have := (sameTet_hasV hq (v := u)).2 hu
        simp only [HasV, List.mem_cons, List.not_mem_nil, or_false] at this
        rcases this with rfl | rfl | rfl | rfl
        · exact (self0 (h u) (h y) (h z)).ge
        · exact (self1 (h x) (h u) (h z)).ge
        · exact (self2 (h x) (h y) (h u)).ge
        · exact hDq.le
      rw [map_add, map_add, map_add]
      have n1 := nn (Q k).1 (by simp [HasV])
      have n2 := nn (Q k).2.1 (by simp [HasV])
      have n3 := nn (Q k).2.2.1 (by simp [HasV])
      have n4 := nn (Q k).2.2.2 (by simp [HasV])
      have : HasV (Q k) q.2.2.2 := (sameTet_hasV hq).1 (by simp [HasV])
      simp only [HasV, List.mem_cons, List.not_mem_nil, or_false] at this
      rcases this with h3 | h3 | h3 | h3 <;> rw [h3] at hDq <;> linarith)
  refine ⟨y, fun q hq => hy _ (List.mem_append_left _ (mem_faceList.2 ⟨q, hq, rfl⟩)), fun a b c d hS =>
    hy _ (List.mem_append_right _ (List.mem_map.2 ⟨(a, b, c, d), (hall _).2 hS, rfl⟩)),
    Cell_iff.2 fun q hq => hyG _ (List.mem_map_of_mem (mem_twelve.2 hq))⟩

/-- Signs close to a vector on a line that is in no plane. -/
theorem _root_.Tet.close (pos : ∀ k ∈ ids, 0 < D h (Q k)) {y z : Vec4 K} (hyz : ∀ q, Shown ids Q q → F h q y ≠ 0 ∨ F h q z ≠ 0) :
    ∃ e : K, 0 < e ∧ ∀ t, 0 < t → t ≤ e → Free h (Shown ids Q) (y + t • z) ∧
      ∀ q, Shown ids Q q → (0 < F h q y ∨ F h q y = 0 ∧ 0 < F h q z) → 0 < F h q (y + t • z) := by
  classical
  obtain ⟨e, he, hsm⟩ := small ((faceList h ids Q).map fun f => if 0 < f y ∨ f y = 0 ∧ 0 < f z then f else -f) y z (by
    intro g hg
    obtain ⟨f, hf, rfl⟩ := List.mem_map.1 hg
    obtain ⟨q, hq, rfl⟩ := mem_faceList.1 hf
    split_ifs with h0
    · exact h0
    · push Not at h0
      rw [LinearMap.neg_apply, LinearMap.neg_apply, neg_pos, neg_pos, neg_eq_zero]
      rcases h0.1.lt_or_eq with h1 | h1
      · exact .inl h1
      · exact .inr ⟨h1, lt_of_le_of_ne (h0.2 h1) ((hyz q hq).resolve_left (not_not.2 h1))⟩)
  refine ⟨e, he, fun t t0 t1 => ⟨fun q hq => ?_, fun q hq h0 => ?_⟩⟩
  · have := hsm t t0 t1 _ (List.mem_map_of_mem (mem_faceList.2 ⟨q, hq, rfl⟩))
    split_ifs at this
    · exact this.ne'
    · rw [LinearMap.neg_apply, neg_pos] at this
      exact this.ne
  · have := hsm t t0 t1 _ (List.mem_map_of_mem (mem_faceList.2 ⟨q, hq, rfl⟩))
    rwa [if_pos h0] at this

/-- Far away from `s` there are only other tets. -/
theorem escape (St : StarAt h ids Q E s) {x : Vec4 K} (hx : Free h (Shown ids Q) x) :
    ∃ r : K, 0 < r ∧ Free h (Shown ids Q) (x - r • s) ∧ ∀ k ∈ ids, Cell h (Q k) (x - r • s) → ¬ E k := by
  obtain ⟨e, he, hsm⟩ := close St.pos (y := -s) (z := x) (fun q hq => .inr (hx q hq))
  obtain ⟨hf, hpos⟩ := hsm e he le_rfl
  have e1 : x - e⁻¹ • s = e⁻¹ • (-s + e • x) := by
    rw [smul_add, smul_smul, inv_mul_cancel₀ he.ne']
    module
  have hi : 0 < e⁻¹ := inv_pos.2 he
  have hF : ∀ q, F h q (x - e⁻¹ • s) = e⁻¹ * F h q (-s + e • x) := by
    intro q
    rw [e1, map_smul, smul_eq_mul]
  have hf' : Free h (Shown ids Q) (x - e⁻¹ • s) := fun q hq => by
    rw [hF]
    exact mul_ne_zero hi.ne' (hf q hq)
  refine ⟨e⁻¹, hi, hf', fun k hk hc hE => ?_⟩
  obtain ⟨k0, hk0, hn0⟩ := St.rest
  obtain ⟨y, hy, hcl, hcy⟩ := St.inside hk0 hf'
  obtain ⟨k2, h2, c2, hR⟩ := walk_to St.pos hy (N := fun p => ∃ t, 0 ≤ t ∧ t ≤ 1 ∧ p = (x - e⁻¹ • s) + t • (y - (x - e⁻¹ • s)))
    (I := fun _ => True)
    (R := fun k k' => E k → E k') (by
      rintro k hk - a b c d p hs hin ⟨t, t0, t1, rfl⟩ hn
      obtain ⟨k', hk', z, hz⟩ := St.glued.adj k hk a b c d hs
      refine ⟨k', hk', z, hz, trivial, fun h1 => ?_⟩
      by_contra h2
      have p1 := St.seen k hk h1 k' hk' h2 a b c d z hs hz
      have p2 : F h (a, b, c, d) _ = 0 := hin.plane
      have p3 : F h (a, b, c, d) (x - e⁻¹ • s) < 0 := by
        rw [hF]
        refine mul_neg_of_pos_of_neg hi ?_
        have hS : Shown ids Q (b, a, c, z) := ⟨k', hk', hz⟩
        have := hpos _ hS (.inl (by
          change 0 < det (h b) (h a) (h c) (-s)
          rw [Vec4.swap0, det_neg]
          linarith))
        rw [F_swap a b c d z] at this
        linarith
      generalize x - e⁻¹ • s = w at *
      rw [map_add, map_smul, map_sub, smul_eq_mul] at p2
      have q1 := mul_nonneg t0 (neg_nonneg.2 hn.le)
      rcases t1.lt_or_eq with t1 | rfl
      · have := mul_pos (by linarith : 0 < 1 - t) (neg_pos.2 p3)
        linarith
      · linarith) _ _ hf' hcl.avoids (fun t t0 t1 => ⟨t, t0, t1, rfl⟩) rfl k hk trivial hc
  have e := St.unique hy h2 hk0 c2 hcy
  subst e
  clear c2 h2 hcy hk0 hcl
  refine hn0 ?_
  clear hn0
  induction hR with
  | refl => exact hE
  | tail _ hl ih => exact hl ih

/-- The tets are covered by the cones of their outer triangles. -/
theorem cover (St : StarAt h ids Q E s) {x : Vec4 K} (hx : Gen h (Shown ids Q) s x) {k : Nat} (hk : k ∈ ids)
    (hc : Cell h (Q k) x) (hE : E k) : ∃ a b c, OutTri ids Q E a b c ∧ ∃ r : K, 0 < r ∧ InTri (h a) (h b) (h c) (x - r • s) := by
  obtain ⟨r, hr, hf, hno⟩ := St.escape hx.1
  by_contra hcon
  push Not at hcon
  obtain ⟨k2, h2, c2, hR⟩ := walk_to St.pos hf (N := fun p => ∃ t, 0 ≤ t ∧ t ≤ 1 ∧ p = x - (t * r) • s) (I := fun _ => True)
    (R := fun k k' => E k → E k') (by
      rintro k hk - a b c d p hs hin ⟨t, t0, t1, rfl⟩ hn
      obtain ⟨k', hk', z, hz⟩ := St.glued.adj k hk a b c d hs
      refine ⟨k', hk', z, hz, trivial, fun h1 => ?_⟩
      by_contra h2
      rcases t0.lt_or_eq with t0 | rfl
      · exact hcon a b c ⟨k, hk, h1, d, hs, k', hk', h2, z, hz⟩ _ (mul_pos t0 hr) hin
      · rw [zero_mul, zero_smul, sub_zero] at hin
        exact hx.1 _ ⟨k, hk, hs⟩ hin.plane) _ x hx.1 (hx.avoids r) (by
      intro t t0 t1
      exact ⟨t, t0, t1, by module⟩) rfl k hk trivial hc
  refine hno k2 h2 c2 ?_
  clear c2 h2
  induction hR with
  | refl => exact hE
  | tail _ hl ih => exact hl ih

/-- Close to an outer triangle: first inside, then outside. -/
theorem sides (St : StarAt h ids Q E s) {x : Vec4 K} (hx : Gen h (Shown ids Q) s x) {a b c : VId} (ho : OutTri ids Q E a b c)
    {r : K} (hin : InTri (h a) (h b) (h c) (x - r • s)) : ∃ e : K, 0 < e ∧ ∀ t, 0 < t → t ≤ e →
      (Free h (Shown ids Q) (x - (r - t) • s) ∧ ∃ k ∈ ids, E k ∧ Cell h (Q k) (x - (r - t) • s) ∧ ∃ d, SameTet (Q k) (a, b, c, d)) ∧
      (Free h (Shown ids Q) (x - (r + t) • s) ∧ ∃ k ∈ ids, ¬ E k ∧ Cell h (Q k) (x - (r + t) • s)) := by
  have hp := St.out_pos ho
  obtain ⟨k, hk, hE, d, hs, k', hk', hE', z, hz⟩ := ho
  obtain ⟨ka, kb, kc, h1, h2, h3, hy⟩ := hin
  have nz : ∀ q, Shown ids Q q → F h q (x - r • s) ≠ 0 ∨ F h q s ≠ 0 := by
    intro q hq
    by_contra hcon
    push Not at hcon
    refine hx.1 q hq ?_
    have : x = (x - r • s) + r • s := by module
    rw [this, map_add, map_smul, hcon.1, hcon.2, smul_zero, add_zero]
  obtain ⟨e1, he1, g1⟩ := close St.pos nz
  obtain ⟨e2, he2, g2⟩ := close St.pos (y := x - r • s) (z := -s) (fun q hq => (nz q hq).imp_right fun hn => by
    rwa [map_neg, neg_ne_zero])
  refine ⟨min e1 e2, lt_min he1 he2, fun t t0 t1 => ⟨?_, ?_⟩⟩
  · obtain ⟨i1, i2⟩ := g1 t t0 (t1.trans (min_le_left _ _))
    have e : x - (r - t) • s = x - r • s + t • s := by module
    rw [e]
    refine ⟨i1, k, hk, hE, ?_, d, hs⟩
    have pD : 0 < D h (a, b, c, d) := by rw [D_same hs]; exact St.pos k hk
    obtain ⟨f0, f1, f2, f3⟩ := tri_faces pD h1 h2 h3 hy
    have t' (q : V4) (hq : q ∈ twelve (a, b, c, d)) : Shown ids Q q := ⟨k, hk, SameTet.trans' hs (mem_twelve.1 hq)⟩
    rw [← Cell_same hs]
    exact ⟨i2 (a, b, c, d) (t' _ (by simp [twelve])) (.inr ⟨f0, hp⟩), i2 (a, d, b, c) (t' _ (by simp [twelve])) (.inl f1),
      i2 (a, c, d, b) (t' _ (by simp [twelve])) (.inl f2), i2 (b, d, c, a) (t' _ (by simp [twelve])) (.inl f3)⟩
  · obtain ⟨i1, i2⟩ := g2 t t0 (t1.trans (min_le_right _ _))
    have e : x - (r + t) • s = x - r • s + t • -s := by module
    rw [e]
    refine ⟨i1, k', hk', hE', ?_⟩
    have pD : 0 < D h (b, a, c, z) := by rw [D_same hz]; exact St.pos k' hk'
    obtain ⟨f0, f1, f2, f3⟩ := tri_faces pD h2 h1 h3 (y := x - r • s) (by rw [hy]; module)
    have t' (q : V4) (hq : q ∈ twelve (b, a, c, z)) : Shown ids Q q := ⟨k', hk', SameTet.trans' hz (mem_twelve.1 hq)⟩
    rw [← Cell_same hz]
    refine ⟨i2 (b, a, c, z) (t' _ (by simp [twelve])) (.inr ⟨f0, ?_⟩), i2 (b, z, a, c) (t' _ (by simp [twelve])) (.inl f1),
      i2 (b, c, z, a) (t' _ (by simp [twelve])) (.inl f2), i2 (a, z, c, b) (t' _ (by simp [twelve])) (.inl f3)⟩
    change 0 < det (h b) (h a) (h c) (-s)
    rw [det_neg, Vec4.swap0]
    linarith

/-- The cones contain nothing else. -/
theorem within (St : StarAt h ids Q E s) {x : Vec4 K} (hx : Gen h (Shown ids Q) s x) {a b c : VId} (ho : OutTri ids Q E a b c)
    {r : K} (hr : 0 < r) (hin : InTri (h a) (h b) (h c) (x - r • s)) {k : Nat} (hk : k ∈ ids) (hc : Cell h (Q k) x) : E k := by
  obtain ⟨e, he, h1⟩ := St.sides hx ho hin
  obtain ⟨⟨i1, k', hk', hE', hc', -⟩, -⟩ := h1 (min e r) (lt_min he hr) (min_le_left _ _)
  by_contra hn
  exact St.no_enter hx (sub_nonneg.2 (min_le_right e r)) i1 hk hk' hc hc' hn hE'

/-- The cones do not overlap. -/
theorem apart (St : StarAt h ids Q E s) {x : Vec4 K} (hx : Gen h (Shown ids Q) s x) {a b c a' b' c' : VId}
    (ho : OutTri ids Q E a b c) (ho' : OutTri ids Q E a' b' c') {r r' : K} (hin : InTri (h a) (h b) (h c) (x - r • s))
    (hin' : InTri (h a') (h b') (h c') (x - r' • s)) :
    (a' = a ∧ b' = b ∧ c' = c) ∨ (a' = b ∧ b' = c ∧ c' = a) ∨ (a' = c ∧ b' = a ∧ c' = b) := by
  have key : ∀ {a b c a' b' c' : VId} {r r' : K}, OutTri ids Q E a b c → OutTri ids Q E a' b' c' →
      InTri (h a) (h b) (h c) (x - r • s) → InTri (h a') (h b') (h c') (x - r' • s) → ¬ r < r' := by
    intro a b c a' b' c' r r' ho ho' hin hin' hlt
    obtain ⟨e, he, h1⟩ := St.sides hx ho hin
    obtain ⟨e', he', h2⟩ := St.sides hx ho' hin'
    let t := min (min e e') ((r' - r) / 2)
    have t0 : 0 < t := lt_min (lt_min he he') (by linarith)
    have t1 : t ≤ e := (min_le_left _ _).trans (min_le_left _ _)
    have t2 : t ≤ e' := (min_le_left _ _).trans (min_le_right _ _)
    have t3 : t ≤ (r' - r) / 2 := min_le_right _ _
    obtain ⟨-, i1, k, hk, hE, hc⟩ := h1 t t0 t1
    obtain ⟨⟨j1, k', hk', hE', hc', -⟩, -⟩ := h2 t t0 t2
    have e2 : x - (r' - t) • s = (x - (r + t) • s) - (r' - r - 2 * t) • s := by module
    rw [e2] at j1 hc'
    exact St.no_enter (hx.move i1) (by linarith) j1 hk hk' hc hc' hE hE'
  have hrr : r = r' := le_antisymm (not_lt.1 (key ho' ho hin' hin)) (not_lt.1 (key ho ho' hin hin'))
  subst hrr
  obtain ⟨e, he, h1⟩ := St.sides hx ho hin
  obtain ⟨e', he', h2⟩ := St.sides hx ho' hin'
  obtain ⟨⟨i1, k, hk, -, hc, d, hs⟩, -⟩ := h1 (min e e') (lt_min he he') (min_le_left _ _)
  obtain ⟨⟨-, k', hk', -, hc', d', hs'⟩, -⟩ := h2 (min e e') (lt_min he he') (min_le_right _ _)
  obtain rfl := St.unique i1 hk hk' hc hc'
  have hss := SameTet.trans' (SameTet.symm' hs) hs'
  refine one_face hss hin.plane hin'.plane ?_
  obtain ⟨ka, kb, kc, p1, p2, p3, hy⟩ := hin
  have pD : 0 < D h (a, b, c, d) := by rw [D_same hs]; exact St.pos k hk
  obtain ⟨-, f1, f2, f3⟩ := tri_faces pD p1 p2 p3 hy
  generalize x - r • s = y at *
  have cyc (p q r : VId) : det (h q) (h r) (h p) y = det (h p) (h q) (h r) y := by simp only [det, det3]; ring
  have f1 : 0 < det (h a) (h d) (h b) y := f1
  have f2 : 0 < det (h a) (h c) (h d) y := f2
  have f3 : 0 < det (h b) (h d) (h c) y := f3
  have g1 := f1
  have g2 := f2
  have g3 := f3
  rw [← cyc a d b] at g1
  rw [← cyc a c d] at g2
  rw [← cyc b d c] at g3
  have e1 := g1
  have e2 := g2
  have e3 := g3
  rw [← cyc d b a] at e1
  rw [← cyc c d a] at e2
  rw [← cyc d c b] at e3
  have k1 := e1
  have k2 := e2
  have k3 := e3
  rw [← cyc b a d] at k1
  rw [← cyc d a c] at k2
  rw [← cyc c b d] at k3
  intro p q u v hm h0
  have h0 : det (h p) (h q) (h u) y = 0 := h0
  intro h5
  have h5 : det (h p) (h v) (h q) y = 0 := h5
  clear hy cyc hin' hss hs hs' hc hc' i1 h1 h2
  simp only [twelve, List.mem_cons, List.not_mem_nil, or_false, Prod.mk.injEq] at hm
  generalize hdet : det (K := K) = dd at *
  rcases hm with ⟨rfl, rfl, rfl, rfl⟩ | ⟨rfl, rfl, rfl, rfl⟩ | ⟨rfl, rfl, rfl, rfl⟩ | ⟨rfl, rfl, rfl, rfl⟩ | ⟨rfl, rfl, rfl, rfl⟩ |
    ⟨rfl, rfl, rfl, rfl⟩ | ⟨rfl, rfl, rfl, rfl⟩ | ⟨rfl, rfl, rfl, rfl⟩ | ⟨rfl, rfl, rfl, rfl⟩ | ⟨rfl, rfl, rfl, rfl⟩ |
    ⟨rfl, rfl, rfl, rfl⟩ | ⟨rfl, rfl, rfl, rfl⟩
  all_goals first
    | exact absurd h5 k1.ne'
    | exact absurd h5 k2.ne'
    | exact absurd h5 k3.ne'
    | exact absurd h5 g1.ne'
    | exact absurd h5 g2.ne'
    | exact absurd h5 g3.ne'
    | exact absurd h5 e1.ne'
    | exact absurd h5 e2.ne'
    | exact absurd h5 e3.ne'
    | exact absurd h0 k1.ne'
    | exact absurd h0 k2.ne'
    | exact absurd h0 k3.ne'
    | exact absurd h0 g1.ne'
    | exact absurd h0 g2.ne'
    | exact absurd h0 g3.ne'
    | exact absurd h0 e1.ne'
    | exact absurd h0 e2.ne'
    | exact absurd h0 e3.ne'

end StarAt
end Tet
