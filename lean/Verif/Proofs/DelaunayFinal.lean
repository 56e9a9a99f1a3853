import Verif.Proofs.DelaunayBuild

/-!
# The checks at the end of the Delaunay construction
-/

namespace Tet
open Spec Vec5
variable {P V T H : Type} {K : Type} [Field K] [LinearOrder K] [IsStrictOrderedRing K]

/-- Without an index of triangles, `assert_integrity` passes for a consistent mesh all of whose vertices are used. -/
theorem integrity_of {m : Mesh P V T} (hm : Consistent m) (ht : m.trackTriMap = false)
    (hv : ∀ v x, m.vertices.get v = some x → m.first x.tet = some v) {f : V4 → Bool}
    (hf : ∀ k t, m.tets.get k = some t → f (t.vertices 0, t.vertices 1, t.vertices 2, t.vertices 3) = true) :
    m.assertIntegrity [] (some f) = true := by
  have hT := hm.toT
  let m0 : Mesh P V T := { m with triMap := fun _ => none }
  have h0 : ConsistentT m0 := ⟨hT.stored, hT.adj, hT.distinct, hT.vref, hT.vlive, hT.eptr, hT.eunique, hT.eused,
    hT.tunique, hT.ring, hT.locks, fun h => absurd (ht.symm.trans h) (by simp), fun h => absurd (ht.symm.trans h) (by simp)⟩
  have h1 : m0.assertIntegrity [] none = true :=
    (integrity_iff h0.stored h0.vlive h0.tunique h0.ring (by simp [m0])).2 ⟨h0, hv⟩
  simp only [Mesh.assertIntegrity, Bool.and_eq_true, List.all_eq_true, IdMap.mem_keys] at h1 ⊢
  obtain ⟨⟨⟨⟨a1, a2⟩, a3⟩, -⟩, a5⟩ := h1
  refine ⟨⟨⟨⟨a1, a2⟩, a3⟩, by simp [Mesh.triMapOk, ht]⟩, fun k hk => ?_⟩
  obtain ⟨t, hkt⟩ := Option.isSome_iff_exists.1 hk
  obtain ⟨b1, -, b3, b4⟩ := (tetOk_iff (m := m0) none hkt).1 (a5 k hk)
  refine (tetOk_iff _ hkt).2 ⟨b1, ?_, b3, fun e => ?_⟩
  · rintro g ⟨rfl⟩
    exact hf k t hkt
  · obtain ⟨tA, tB, ue, c1, c2, c3, c4, c5, c6, -⟩ := (walkerOk_iff (m := m0) hkt e).1 (b4 e)
    exact (walkerOk_iff hkt e).2 ⟨tA, tB, ue, c1, c2, c3, c4, c5, c6, fun _ h => by rw [ht] at h; cases h⟩

theorem orient_swap0 (a b c d : Pt K) : orient3d b a c d = -orient3d a b c d := by
  simp only [orient3d, Pt.sub, Pt.cross, Pt.dot]; ring
theorem orient_swap1 (a b c d : Pt K) : orient3d a c b d = -orient3d a b c d := by
  simp only [orient3d, Pt.sub, Pt.cross, Pt.dot]; ring
theorem orient_swap2 (a b c d : Pt K) : orient3d a b d c = -orient3d a b c d := by
  simp only [orient3d, Pt.sub, Pt.cross, Pt.dot]; ring

/-- The orientation of a tet does not depend on how it is written. -/
theorem orient_even (pos : VId → Pt K) {p q : V4} (h : SameTet p q) :
    orient3d (pos q.1) (pos q.2.1) (pos q.2.2.1) (pos q.2.2.2) = orient3d (pos p.1) (pos p.2.1) (pos p.2.2.1) (pos p.2.2.2) := by
  obtain ⟨a, b, c, d⟩ := p
  obtain ⟨a', b', c', d'⟩ := q
  exact alt_even (fun x : K => -x) neg_neg (fun a b c d => orient3d (pos a) (pos b) (pos c) (pos d)) (fun _ => True)
    (fun _ _ _ => trivial) (fun _ _ _ _ _ => orient_swap0 ..) (fun _ _ _ _ _ => orient_swap1 ..)
    (fun _ _ _ _ _ => orient_swap2 ..) h trivial

/-- The test of the orientation passes if the centre is behind all triangles of the hull. -/
theorem orientOk_all {norm : Pt K → K} {tol : K} {sim} {key : List (Pt K) → Pt K → H} {leH} {m : Mesh (Pt K) V T}
    (hd : Delaunay m) (hm : Consistent m) {o : Pt K}
    (ho : ∀ w a b c pa pb pc, m.tet4 w = some (a, b, c, GHOST) → At m a pa → At m b pb → At m c pc → orient3d pa pb pc o < 0)
    (k : TId) (t : Tet T) (ht : m.tets.get k = some t) :
    (exactGeo norm tol sim key leH).orientOk o m.position (t.vertices 0, t.vertices 1, t.vertices 2, t.vertices 3) = true := by
  let pos : VId → Pt K := fun v => if v = GHOST then o else (m.position v).getD ⟨0, 0, 0⟩
  have h4 : m.tet4 ⟨k, 0⟩ = some (t.tet 0) := Mesh.tet4_iff.2 ⟨t, ht, rfl⟩
  have hsame : SameTet (t.vertices 0, t.vertices 1, t.vertices 2, t.vertices 3) (t.tet 0) := by
    have e1 := t.rearr_tet 0
    rw [← quad_self t.vertices] at e1
    exact e1
  have hat : ∀ i, t.vertices i ≠ GHOST → ∃ p, At m (t.vertices i) p := by
    intro i hi
    refine tet_positions hm h4 _ ?_ hi
    have : ∀ (l : Fin 4), l = firstIdx 0 ∨ l = secondIdx 0 ∨ l = thirdIdx 0 ∨ l = face 0 := by decide
    simp only [List.mem_cons, List.not_mem_nil, or_false]
    rcases this i with h | h | h | h
    · exact .inl (by rw [h]; rfl)
    · exact .inr (.inl (by rw [h]; rfl))
    · exact .inr (.inr (.inl (by rw [h]; rfl)))
    · exact .inr (.inr (.inr (by rw [h]; rfl)))
  have hori : ∀ i, (if t.vertices i = GHOST then some o else m.position (t.vertices i)) = some (pos (t.vertices i)) := by
    intro i
    by_cases hi : t.vertices i = GHOST
    · simp [pos, hi]
    · obtain ⟨p, hp⟩ := hat i hi
      simp [pos, hi, At.position hp]
  have hpos : ∀ {v p}, At m v p → pos v = p := by
    intro v p h
    simp [pos, h.1, At.position h]
  simp only [exactGeo, hori, Option.bind_eq_bind, Option.bind_some, Option.pure_def, Option.getD_some, decide_eq_true_eq]
  have hmem : ∀ v, v ∈ [t.vertices 0, t.vertices 1, t.vertices 2, t.vertices 3] ↔
      v ∈ [(t.tet 0).1, (t.tet 0).2.1, (t.tet 0).2.2.1, (t.tet 0).2.2.2] := fun v =>
    ⟨fun h => by_contra fun hn => sameTet_mem hsame hn h, fun h => by_contra fun hn => sameTet_mem (EvenRearr.symm hsame) hn h⟩
  rcases hq : t.tet 0 with ⟨a, b, c, d⟩
  rw [hq] at hmem h4 hsame
  have hev := orient_even pos hsame
  simp only at hev hmem
  unfold Mesh.ghostSign
  rw [← hev]
  split_ifs with hg
  · rw [hmem] at hg
    obtain ⟨w', x, y, z, e1, e2, -⟩ := ghost_last h4 hg
    have hs := tet4_same (w := ⟨k, 0⟩) (w' := w') e1.symm h4 e2
    rw [← orient_even pos hs]
    have hn := hm.distinct _ _ _ _ _ e2
    simp only [List.nodup_cons, List.mem_cons, List.not_mem_nil, or_false, not_or, not_false_eq_true, List.nodup_nil,
      and_true] at hn
    have hp := tet_positions hm e2
    obtain ⟨px, hx⟩ := hp x (by simp) hn.1.2.2
    obtain ⟨py, hy⟩ := hp y (by simp) hn.2.1.2
    obtain ⟨pz, hz⟩ := hp z (by simp) hn.2.2
    have := ho _ _ _ _ _ _ _ e2 hx hy hz
    rw [hpos hx, hpos hy, hpos hz, show pos GHOST = o from if_pos rfl]
    linarith
  · rw [hmem] at hg
    simp only [List.mem_cons, List.not_mem_nil, or_false, not_or] at hg
    have hp := tet_positions hm h4
    obtain ⟨pa, ha⟩ := hp a (by simp) (Ne.symm hg.1)
    obtain ⟨pb, hb⟩ := hp b (by simp) (Ne.symm hg.2.1)
    obtain ⟨pc, hc⟩ := hp c (by simp) (Ne.symm hg.2.2.1)
    obtain ⟨pd, hd'⟩ := hp d (by simp) (Ne.symm hg.2.2.2)
    rw [hpos ha, hpos hb, hpos hc, hpos hd', one_mul]
    exact hd.positive _ _ _ _ _ _ _ _ _ h4 ha hb hc hd'

/-! ### The centre -/

theorem orient_smul (a b c : Pt K) (k : K) (p : Pt K) : orient3d a b c (Pt.smul k p) - orient3d a b c ⟨0, 0, 0⟩ =
    k * (orient3d a b c p - orient3d a b c ⟨0, 0, 0⟩) := by
  simp only [orient3d, Pt.smul, Pt.sub, Pt.cross, Pt.dot]; ring

theorem orient_add (a b c p q : Pt K) : orient3d a b c (p.add q) - orient3d a b c ⟨0, 0, 0⟩ =
    (orient3d a b c p - orient3d a b c ⟨0, 0, 0⟩) + (orient3d a b c q - orient3d a b c ⟨0, 0, 0⟩) := by
  simp only [orient3d, Pt.add, Pt.sub, Pt.cross, Pt.dot]; ring

theorem orient_mid (a b c : Pt K) (q : Pt K × Pt K × Pt K × Pt K) : orient3d a b c (Pt.centroid4 q) =
    (orient3d a b c q.1 + orient3d a b c q.2.1 + orient3d a b c q.2.2.1 + orient3d a b c q.2.2.2) / 4 := by
  have h1 := orient_smul a b c (1 / 4) (((q.1.add q.2.1).add q.2.2.1).add q.2.2.2)
  have h2 := orient_add a b c ((q.1.add q.2.1).add q.2.2.1) q.2.2.2
  have h3 := orient_add a b c (q.1.add q.2.1) q.2.2.1
  have h4 := orient_add a b c q.1 q.2.1
  unfold Pt.centroid4
  linarith

/-- The centre is behind every triangle that has all the centroids behind it. -/
theorem centre_neg {norm : Pt K → K} {tol : K} {sim} {key : List (Pt K) → Pt K → H} {leH} {ps : List (Pt K × Pt K × Pt K × Pt K)}
    (hne : ps ≠ []) {a b c : Pt K} (h : ∀ q ∈ ps, 0 < orient3d q.1 q.2.1 q.2.2.1 q.2.2.2 ∧ orient3d a b c (Pt.centroid4 q) < 0) :
    orient3d a b c ((exactGeo norm tol sim key leH).centre ps) < 0 := by
  set w : Pt K × Pt K × Pt K × Pt K → K := fun q => orient3d q.1 q.2.1 q.2.2.1 q.2.2.2 with hw
  set o := orient3d a b c ⟨0, 0, 0⟩ with ho
  have hsum : ∀ (l : List (Pt K × Pt K × Pt K × Pt K)) (s : Pt K),
      orient3d a b c (l.foldl (fun s q => s.add (Pt.smul (w q) (Pt.centroid4 q))) s) - o =
      (orient3d a b c s - o) + (l.map fun q => w q * (orient3d a b c (Pt.centroid4 q) - o)).sum := by
    intro l
    induction l with
    | nil => simp
    | cons q l ih =>
      intro s
      rw [List.foldl_cons, ih, orient_add, orient_smul, List.map_cons, List.sum_cons, add_assoc]
  have hlt : ∀ l : List (Pt K × Pt K × Pt K × Pt K), (∀ q ∈ l, 0 < w q ∧ orient3d a b c (Pt.centroid4 q) < 0) → l ≠ [] →
      0 < (l.map w).sum ∧ (l.map fun q => w q * (orient3d a b c (Pt.centroid4 q) - o)).sum < (l.map w).sum * -o := by
    intro l
    induction l with
    | nil => intro _ h; exact absurd rfl h
    | cons q l ih =>
      intro h _
      obtain ⟨h1, h2⟩ := h q (by simp)
      have h3 : w q * (orient3d a b c (Pt.centroid4 q) - o) < w q * -o := mul_lt_mul_of_pos_left (by linarith) h1
      simp only [List.map_cons, List.sum_cons]
      by_cases hl : l = []
      · subst hl
        simp only [List.map_nil, List.sum_nil, add_zero]
        exact ⟨h1, h3⟩
      · obtain ⟨k1, k2⟩ := ih (fun q hq => h q (by simp [hq])) hl
        refine ⟨by linarith, ?_⟩
        rw [add_mul]
        linarith
  obtain ⟨h1, h2⟩ := hlt ps h hne
  have h3 := hsum ps ⟨0, 0, 0⟩
  have h4 := orient_smul a b c ((ps.map w).sum)⁻¹ (ps.foldl (fun s q => s.add (Pt.smul (w q) (Pt.centroid4 q))) ⟨0, 0, 0⟩)
  show orient3d a b c (Pt.smul ((ps.map w).sum)⁻¹ (ps.foldl (fun s q => s.add (Pt.smul (w q) (Pt.centroid4 q))) ⟨0, 0, 0⟩)) < 0
  rw [← ho, h3, ← ho, sub_self, zero_add] at h4
  have h5 : ((ps.map w).sum)⁻¹ * (ps.map fun q => w q * (orient3d a b c (Pt.centroid4 q) - o)).sum < -o := by
    calc _ < ((ps.map w).sum)⁻¹ * ((ps.map w).sum * -o) := mul_lt_mul_of_pos_left h2 (inv_pos.2 h1)
      _ = _ := by rw [← mul_assoc, inv_mul_cancel₀ h1.ne', one_mul]
  linarith

/-! ### The first four points -/

theorem maxByKey_some {α R : Type} {le : R → R → Bool} {l : List (α × R)} (h : l ≠ []) :
    ∃ a, maxByKey le l = some a ∧ ∃ r, (a, r) ∈ l := by
  cases l with
  | nil => exact absurd rfl h
  | cons x l =>
    refine ⟨_, rfl, (l.foldl (fun best y => if le best.2 y.2 then y else best) x).2, ?_⟩
    have : ∀ (l : List (α × R)) (x : α × R), l.foldl (fun best y => if le best.2 y.2 then y else best) x ∈ x :: l := by
      intro l
      induction l with
      | nil => intro x; simp
      | cons y l ih =>
        intro x
        rw [List.foldl_cons]
        have := ih (if le x.2 y.2 then y else x)
        split_ifs at this ⊢ <;> simp only [List.mem_cons] at this ⊢ <;> tauto
    exact this l x

theorem swapAt_some {l : List (VId × P × V)} {i j : Nat} (hi : i < l.length) (hj : j < l.length) :
    ∃ l', Mesh.firstFour.swapAt l i j = some l' ∧ ∀ k, k < i → k < j → l'[k]? = l[k]? := by
  refine ⟨(l.set i l[j]).set j l[i], ?_, ?_⟩
  · simp only [Mesh.firstFour.swapAt, List.getElem?_eq_getElem hi, List.getElem?_eq_getElem hj]
    rfl
  · intro k h1 h2
    rw [List.getElem?_set_ne (by omega), List.getElem?_set_ne (by omega)]

theorem take_subperm {l : List (VId × Pt K × V)} {x : List (VId × Pt K × V)} (h : ∀ i, i < x.length → l[i]? = x[i]?) :
    (x.map (·.2.1)).Subperm (l.map (·.2.1)) := by
  refine subperm_map _ ?_
  have : x = l.take x.length := by
    apply List.ext_getElem?
    intro i
    by_cases hi : i < x.length
    · rw [List.getElem?_take, if_pos hi, h i hi]
    · rw [List.getElem?_take, if_neg hi, List.getElem?_eq_none (by omega)]
  rw [this]
  exact (List.take_sublist _ _).subperm

theorem firstFour_some {norm : Pt K → K} {tol : K} {sim} {key : List (Pt K) → Pt K → H} {leH} (ht : 0 < tol)
    {l : List (VId × Pt K × V)} (h4 : 4 ≤ l.length) (hw : Wide norm tol (l.map (·.2.1))) :
    ∃ l', Mesh.firstFour (exactGeo norm tol sim key leH) l = some l' := by
  obtain ⟨a, b, c, d, r, rfl⟩ : ∃ a b c d r, l = a :: b :: c :: d :: r := by
    match l, h4 with
    | a :: b :: c :: d :: r, _ => exact ⟨a, b, c, d, r, rfl⟩
  have hne : ((((a :: b :: c :: d :: r).zipIdx.drop 2).map fun x =>
      (x.2, (exactGeo norm tol sim key leH).height a.2.1 b.2.1 x.1.2.1)).filter
        fun x => (exactGeo norm tol sim key leH).tall x.2) ≠ [] := by
    have hsub : [a.2.1, b.2.1, c.2.1].Subperm ((a :: b :: c :: d :: r).map (·.2.1)) :=
      take_subperm (x := [a, b, c]) (fun i hi => by
        match i, hi with
        | 0, _ => rfl
        | 1, _ => rfl
        | 2, _ => rfl)
    have hsub2 : [a.2.1, b.2.1].Subperm ((a :: b :: c :: d :: r).map (·.2.1)) :=
      take_subperm (x := [a, b]) (fun i hi => by
        match i, hi with
        | 0, _ => rfl
        | 1, _ => rfl)
    have h0 := hw.edges _ _ hsub2
    have h1 := hw.triangles _ _ _ hsub
    have hh : tol ≤ (exactGeo norm tol sim key leH).height a.2.1 b.2.1 c.2.1 := by
      show tol ≤ norm _ / max (max _ _) _
      rw [le_div_iff₀ (lt_max_of_lt_left (lt_max_of_lt_left h0)), mul_max_of_nonneg _ _ ht.le, mul_max_of_nonneg _ _ ht.le,
        max_le_iff, max_le_iff]
      exact ⟨⟨h1 _ (by simp), h1 _ (by simp)⟩, h1 _ (by simp)⟩
    refine List.ne_nil_of_mem (a := (2, (exactGeo norm tol sim key leH).height a.2.1 b.2.1 c.2.1)) ?_
    rw [List.mem_filter]
    refine ⟨?_, decide_eq_true hh⟩
    simp [List.zipIdx_cons]
  obtain ⟨i, hi, ri, hmem⟩ := maxByKey_some (le := (exactGeo norm tol sim key leH).leR) hne
  have hib : 2 ≤ i ∧ i < (a :: b :: c :: d :: r).length := by
    obtain ⟨hm, -⟩ := List.mem_filter.1 hmem
    obtain ⟨⟨x, j⟩, hx, he⟩ := List.mem_map.1 hm
    cases he
    simp only [List.zipIdx_cons, List.drop_succ_cons, List.drop_zero] at hx
    have : ∀ {n : Nat}, (x, j) ∈ (c :: d :: r).zipIdx n → n ≤ j ∧ j < n + (c :: d :: r).length := by
      intro n h
      obtain ⟨h1, h2, -⟩ := List.mem_zipIdx h
      exact ⟨h1, h2⟩
    have := this (n := 2) (by simpa [List.zipIdx_cons] using hx)
    simp only [List.length_cons] at this ⊢
    omega
  obtain ⟨l1, h1, k1⟩ := swapAt_some (l := a :: b :: c :: d :: r) (i := 2) (by simp) hib.2
  obtain ⟨p1, -, -⟩ := swapAt_perm h1
  have hl1 : l1.length = (a :: b :: c :: d :: r).length := p1.length_eq
  obtain ⟨x0, x1, x2, x3, r1, rfl⟩ : ∃ x0 x1 x2 x3 r, l1 = x0 :: x1 :: x2 :: x3 :: r := by
    match l1, (hl1 ▸ h4 : 4 ≤ l1.length) with
    | a :: b :: c :: d :: r, _ => exact ⟨a, b, c, d, r, rfl⟩
  have e0 : x0 = a := by simpa using k1 0 (by omega) (by omega)
  have e1 : x1 = b := by simpa using k1 1 (by omega) (by omega)
  subst e0 e1
  have hsub : [x0.2.1, x1.2.1, x2.2.1, x3.2.1].Subperm ((x0 :: x1 :: c :: d :: r).map (·.2.1)) := by
    refine List.Subperm.trans (take_subperm (l := x0 :: x1 :: x2 :: x3 :: r1) (x := [x0, x1, x2, x3]) (fun i hi => ?_))
      (p1.map _).subperm
    match i, hi with
    | 0, _ => rfl
    | 1, _ => rfl
    | 2, _ => rfl
    | 3, _ => rfl
  have hthick : (exactGeo norm tol sim key leH).thick x0.2.1 x1.2.1 x2.2.1 x3.2.1 = true := by
    have h3 : [x0.2.1, x1.2.1, x2.2.1].Subperm ((x0 :: x1 :: c :: d :: r).map (·.2.1)) :=
      ((List.sublist_append_left [x0.2.1, x1.2.1, x2.2.1] [x3.2.1]).subperm).trans hsub
    have h2 : [x0.2.1, x1.2.1].Subperm ((x0 :: x1 :: c :: d :: r).map (·.2.1)) :=
      ((List.sublist_append_left [x0.2.1, x1.2.1] [x2.2.1]).subperm).trans h3
    have q0 := hw.edges _ _ h2
    have q1 := hw.triangles _ _ _ h3 _ (List.mem_cons_self ..)
    have q2 := hw.tets _ _ _ _ hsub
    have q3 : 0 < norm ((x1.2.1.sub x0.2.1).cross (x2.2.1.sub x0.2.1)) := lt_of_lt_of_le (mul_pos ht q0) q1
    have q4 : max (-((x1.2.1.sub x0.2.1).cross (x2.2.1.sub x0.2.1)).dot (x3.2.1.sub x0.2.1))
        (- -((x1.2.1.sub x0.2.1).cross (x2.2.1.sub x0.2.1)).dot (x3.2.1.sub x0.2.1)) =
        |orient3d x0.2.1 x1.2.1 x2.2.1 x3.2.1| := by
      have : orient3d x0.2.1 x1.2.1 x2.2.1 x3.2.1 = -((x1.2.1.sub x0.2.1).cross (x2.2.1.sub x0.2.1)).dot (x3.2.1.sub x0.2.1) := by
        simp only [orient3d, Pt.sub, Pt.cross, Pt.dot]; ring
      rw [this, abs_eq_max_neg]
    refine decide_eq_true ?_
    simp only [List.foldl_cons, List.foldl_nil]
    rw [q4, le_div_iff₀ (by
      refine lt_max_of_lt_left (lt_max_of_lt_left (lt_max_of_lt_left (lt_max_of_lt_left (lt_max_of_lt_left
        (lt_max_of_lt_left q3)))))),
      mul_max_of_nonneg _ _ ht.le, mul_max_of_nonneg _ _ ht.le, mul_max_of_nonneg _ _ ht.le, mul_max_of_nonneg _ _ ht.le,
      mul_max_of_nonneg _ _ ht.le, mul_max_of_nonneg _ _ ht.le]
    simp only [max_le_iff]
    exact ⟨⟨⟨⟨⟨⟨q2 _ (by simp) _ (by simp) _ (by simp) _ (by simp), q2 _ (by simp) _ (by simp) _ (by simp) _ (by simp)⟩,
      q2 _ (by simp) _ (by simp) _ (by simp) _ (by simp)⟩, q2 _ (by simp) _ (by simp) _ (by simp) _ (by simp)⟩,
      q2 _ (by simp) _ (by simp) _ (by simp) _ (by simp)⟩, q2 _ (by simp) _ (by simp) _ (by simp) _ (by simp)⟩,
      q2 _ (by simp) _ (by simp) _ (by simp) _ (by simp)⟩
  have hfind : ((x0 :: x1 :: x2 :: x3 :: r1).drop 3).findIdx? (fun x =>
      (exactGeo norm tol sim key leH).thick x0.2.1 x1.2.1 x2.2.1 x.2.1) = some 0 := by
    simp only [List.drop_succ_cons, List.drop_zero, List.findIdx?_cons, hthick, if_true]
  obtain ⟨l2, h2, -⟩ := swapAt_some (l := x0 :: x1 :: x2 :: x3 :: r1) (i := 3) (j := 0 + 3) (by simp) (by simp)
  refine ⟨l2, ?_⟩
  unfold Mesh.firstFour
  simp only [List.getElem?_cons_zero, List.getElem?_cons_succ, Option.map_some, Option.bind_eq_bind, Option.bind_some]
  rw [hi]
  simp only [Option.bind_some, h1, List.getElem?_cons_zero, List.getElem?_cons_succ, Option.map_some, hfind, h2]

/-! ### All of it -/

theorem Spec.Ready.centre {m : Mesh P V T} (h : Ready m) (o : P) : Ready { m with center := o } := by
  have hc := h.consistent.toT
  exact ⟨ConsistentT.toSpec ⟨hc.stored, hc.adj, hc.distinct, hc.vref, hc.vlive, hc.eptr, hc.eunique, hc.eused,
      hc.tunique, hc.ring, hc.locks, hc.tsound, hc.tcomplete⟩, h.unmarked,
    ⟨h.tidy.tets, h.tidy.edges, h.tidy.vertices, h.tidy.ghost⟩, h.noMarks⟩

theorem Spec.Delaunay.centre {m : Mesh (Pt K) V T} (h : Delaunay m) (o : Pt K) : Delaunay { m with center := o } :=
  ⟨h.solid, h.positive, h.empty, h.hull⟩

/-- The positions of the solid tets. -/
theorem Spec.Delaunay.solidPositions {m : Mesh (Pt K) V T} (hd : Delaunay m) (hm : Consistent m) :
    ∃ ps, (m.solidTets.mapM fun t => do
      let a ← m.position (t.vertices 0)
      let b ← m.position (t.vertices 1)
      let c ← m.position (t.vertices 2)
      let d ← m.position (t.vertices 3)
      return (a, b, c, d)) = some ps ∧ ps ≠ [] ∧ ∀ q ∈ ps, ∃ w a b c d, m.tet4 w = some (a, b, c, d) ∧
        At m a q.1 ∧ At m b q.2.1 ∧ At m c q.2.2.1 ∧ At m d q.2.2.2 := by
  have hex : ∀ t ∈ m.solidTets, ∃ k a b c d, m.tets.get k = some t ∧ m.tet4 ⟨k, 3⟩ = some (t.vertices 0, t.vertices 1,
      t.vertices 2, t.vertices 3) ∧ At m (t.vertices 0) a ∧ At m (t.vertices 1) b ∧ At m (t.vertices 2) c ∧
      At m (t.vertices 3) d := by
    intro t ht
    obtain ⟨h1, h2⟩ := List.mem_filter.1 ht
    obtain ⟨k, hk⟩ := IdMap.mem_values.1 h1
    have h4 : m.tet4 ⟨k, 3⟩ = some (t.vertices 0, t.vertices 1, t.vertices 2, t.vertices 3) := Mesh.tet4_iff.2 ⟨t, hk, rfl⟩
    simp only [List.mem_cons, List.not_mem_nil, or_false, Bool.not_eq_true', decide_eq_false_iff_not, not_or] at h2
    have hp := tet_positions hm h4
    obtain ⟨a, ha⟩ := hp _ (by simp) (Ne.symm h2.1)
    obtain ⟨b, hb⟩ := hp _ (by simp) (Ne.symm h2.2.1)
    obtain ⟨c, hc⟩ := hp _ (by simp) (Ne.symm h2.2.2.1)
    obtain ⟨d, hd⟩ := hp _ (by simp) (Ne.symm h2.2.2.2)
    exact ⟨k, a, b, c, d, hk, h4, ha, hb, hc, hd⟩
  obtain ⟨ps, h1, h2⟩ := mapM_all (f := fun t : Tet T => (do
      let a ← m.position (t.vertices 0)
      let b ← m.position (t.vertices 1)
      let c ← m.position (t.vertices 2)
      let d ← m.position (t.vertices 3)
      return (a, b, c, d) : Option (Pt K × Pt K × Pt K × Pt K))) m.solidTets (fun t ht => by
    obtain ⟨k, a, b, c, d, -, -, ha, hb, hc, hd⟩ := hex t ht
    exact ⟨(a, b, c, d), by simp [At.position ha, At.position hb, At.position hc, At.position hd]⟩)
  refine ⟨ps, h1, ?_, ?_⟩
  · rintro rfl
    obtain ⟨w, a, b, c, d, pa, pb, pc, pd, h4, ha, hb, hc, hd'⟩ := hd.solid
    obtain ⟨t, ht, hq⟩ := Mesh.tet4_iff.1 h4
    have hsame : SameTet (t.vertices 0, t.vertices 1, t.vertices 2, t.vertices 3) (a, b, c, d) := by
      have e1 := t.rearr_tet w.edge
      rw [← quad_self t.vertices, hq] at e1
      exact e1
    have hm' : t ∈ m.solidTets := by
      refine List.mem_filter.2 ⟨IdMap.mem_values.2 ⟨_, ht⟩, ?_⟩
      have : GHOST ∉ [t.vertices 0, t.vertices 1, t.vertices 2, t.vertices 3] :=
        sameTet_mem hsame (v := GHOST) (by simp [ha.1.symm, hb.1.symm, hc.1.symm, hd'.1.symm])
      simpa using this
    have : m.solidTets = [] := by simpa using h2
    rw [this] at hm'
    cases hm'
  · intro q hq
    obtain ⟨t, ht, he⟩ := mem_mapM _ _ h1 q hq
    obtain ⟨k, a, b, c, d, hk, h4, ha, hb, hc, hd⟩ := hex t ht
    simp only [At.position ha, At.position hb, At.position hc, At.position hd, Option.bind_eq_bind, Option.bind_some,
      Option.pure_def, Option.some.injEq] at he
    subst he
    exact ⟨_, _, _, _, _, h4, ha, hb, hc, hd⟩

/-- The centre is behind all triangles of the hull. -/
theorem Spec.Delaunay.centre_behind {norm : Pt K → K} {tol : K} {sim} {key : List (Pt K) → Pt K → H} {leH}
    {m : Mesh (Pt K) V T} (hd : Delaunay m) (hm : Consistent m) {ps : List (Pt K × Pt K × Pt K × Pt K)} (hne : ps ≠ [])
    (hps : ∀ q ∈ ps, ∃ w a b c d, m.tet4 w = some (a, b, c, d) ∧ At m a q.1 ∧ At m b q.2.1 ∧ At m c q.2.2.1 ∧ At m d q.2.2.2)
    (w : Walker) (a b c : VId) (pa pb pc : Pt K) (h : m.tet4 w = some (a, b, c, GHOST)) (ha : At m a pa) (hb : At m b pb)
    (hc : At m c pc) : orient3d pa pb pc ((exactGeo norm tol sim key leH).centre ps) < 0 := by
  refine centre_neg hne fun q hq => ?_
  obtain ⟨w', x, y, z, u, h4, hx, hy, hz, hu⟩ := hps q hq
  refine ⟨hd.positive _ _ _ _ _ _ _ _ _ h4 hx hy hz hu, ?_⟩
  rw [orient_mid]
  obtain ⟨i1, i2, i3, i4⟩ := inMesh_tet h4
  have key : ∀ {v : VId} {p : Pt K}, InMesh m v → At m v p → orient3d pa pb pc p ≤ 0 ∧
      (v ∉ [a, b, c] → orient3d pa pb pc p < 0) := by
    intro v p hv hp
    have hlt := hd.hull _ _ _ _ _ _ _ h ha hb hc v p hv hp
    refine ⟨?_, hlt⟩
    by_cases hn : v ∈ [a, b, c]
    · refine le_of_eq ?_
      have key : ∀ {u : VId} {q : Pt K}, At m u q → v = u → p = q := by
        rintro u q hu rfl
        have := At.position hu
        rw [At.position hp] at this
        exact Option.some.inj this
      simp only [List.mem_cons, List.not_mem_nil, or_false] at hn
      rcases hn with h | h | h
      · rw [key ha h]; simp only [orient3d, Pt.sub, Pt.cross, Pt.dot]; ring
      · rw [key hb h]; simp only [orient3d, Pt.sub, Pt.cross, Pt.dot]; ring
      · rw [key hc h]; simp only [orient3d, Pt.sub, Pt.cross, Pt.dot]; ring
    · exact (hlt hn).le
  have hout : x ∉ [a, b, c] ∨ y ∉ [a, b, c] ∨ z ∉ [a, b, c] ∨ u ∉ [a, b, c] := by
    by_contra hno
    push Not at hno
    have := (List.subperm_of_subset (hm.distinct _ _ _ _ _ h4) (l₂ := [a, b, c]) (by
      intro v hv
      simp only [List.mem_cons, List.not_mem_nil, or_false] at hv
      rcases hv with rfl | rfl | rfl | rfl
      exacts [hno.1, hno.2.1, hno.2.2.1, hno.2.2.2])).length_le
    simp at this
  obtain ⟨a1, a2⟩ := key i1 hx
  obtain ⟨b1, b2⟩ := key i2 hy
  obtain ⟨c1, c2⟩ := key i3 hz
  obtain ⟨d1, d2⟩ := key i4 hu
  rcases hout with h | h | h | h
  · have := a2 h; linarith
  · have := b2 h; linarith
  · have := c2 h; linarith
  · have := d2 h; linarith

/-- What comes after the sorting returns the Delaunay mesh. -/
theorem sorted_build {norm : Pt K → K} {tol : K} {sim} {key : List (Pt K) → Pt K → H} {leH} {order : List TId → List TId}
    (ho : ∀ l, (order l).Perm l) (htol : 0 < tol)
    (hsim : ∀ a b c d, orient3d a b c d ≠ 0 → sim a b c d = decide (0 < orient3d a b c d)) {l : List (VId × Pt K × V)}
    (hl : (l.map (·.1)).Perm (List.range l.length)) (h4 : 4 ≤ l.length) (hgp : GeneralPosition (l.map (·.2.1)))
    (hw : Wide norm tol (l.map (·.2.1))) (room : 13 * (l.length * (l.length + 1)) ≤ idMax) (nan origin : Pt K) (dt : T) :
    ∃ N m, (∀ fuel ≥ N, Mesh.delaunayFromSorted (exactGeo norm tol sim key leH) order fuel nan origin dt l = some m) ∧
      Built m l l.length := by
  obtain ⟨l1, hl1⟩ := firstFour_some (sim := sim) (key := key) (leH := leH) htol h4 hw
  obtain ⟨p1, p2⟩ := firstFour_perm hl1
  have hlen : l.length ≤ idMax := by nlinarith
  obtain ⟨first, hfirst⟩ : ∃ x, l[0]? = some x := ⟨l[0], List.getElem?_eq_getElem (by omega)⟩
  obtain ⟨v3, hv3⟩ : ∃ x, l1[3]? = some x := ⟨l1[3], List.getElem?_eq_getElem (by omega)⟩
  have hvs := IdMap.extendValues_empty (l.map fun _ => Vertex.new invalidWalker origin first.2.2) (by simpa using hlen)
  set vs : IdMap (Vertex (Pt K) V) := ⟨⟨(l.map fun _ => Vertex.new invalidWalker origin first.2.2).map some,
    (l.map fun _ => Vertex.new invalidWalker origin first.2.2).length⟩, []⟩ with hvsd
  have hget : ∀ u, vs.get u = (l.map fun _ => Vertex.new invalidWalker origin first.2.2)[u]? := fun u => IdMap.get_ofList _ _ u
  have hwf : vs.WF := IdMap.wf_ofList _ (by simpa using hlen)
  have hnd : (l1.map (·.1)).Nodup := ((p1.map (·.1)).trans hl).nodup_iff.2 List.nodup_range
  have hids : ∀ x ∈ l1, x.1 < l.length := fun x hx => by
    have := ((p1.map (·.1)).trans hl).mem_iff.1 (List.mem_map.2 ⟨x, hx, rfl⟩)
    simpa using this
  have hsplit : l1 = l1.take 4 ++ l1.drop 4 := (List.take_append_drop 4 l1).symm
  have hnd4 : ((l1.take 4).map (·.1)).Nodup := hnd.sublist ((List.take_sublist 4 l1).map _)
  have hmax4 : ∀ x ∈ l1.take 4, x.1 < idMax := fun x hx => lt_of_lt_of_le (hids x (List.mem_of_mem_take hx)) hlen
  obtain ⟨m1, vi, k1, k0, k5, k2, k3, ⟨a, b, c, d, k6, k7⟩, k4⟩ := withIds_spec sim
    { (Mesh.blank nan dt : Mesh (Pt K) V T) with vertices := vs } (l1.take 4) dt (by simpa using p2) hnd4 hmax4 hwf
    (fun v x hx => by
      change vs.get v = _ at hx
      rw [hget, List.getElem?_map, Option.map_eq_some_iff] at hx
      obtain ⟨_, -, rfl⟩ := hx
      rfl) rfl rfl rfl
  have hflags : ∀ v x, m1.vertices.get v = some x → x.flags = {} := by
    intro v x hx
    by_cases hv : ∃ y ∈ l1.take 4, v = y.1
    · obtain ⟨y, hy, rfl⟩ := hv
      obtain ⟨w, hw⟩ := k2 y hy
      rw [hx] at hw
      cases hw
      rfl
    · push Not at hv
      rw [k3 v hv] at hx
      change vs.get v = _ at hx
      rw [hget, List.getElem?_map, Option.map_eq_some_iff] at hx
      obtain ⟨_, -, rfl⟩ := hx
      rfl
  have hr1 : Ready m1 := k0.ready hflags (by rw [k4]; rfl)
  have hperm := List.perm_insertionSort (fun a b : VId × Pt K × V => a.1 ≤ b.1) (l1.take 4)
  rw [k6] at hperm
  have hgp1 : GeneralPosition (l1.map (·.2.1)) :=
    ⟨fun q h1 h2 => hgp.planes q h1 (h2.trans (p1.map _).subperm), fun q h1 h2 => hgp.spheres q h1 (h2.trans (p1.map _).subperm)⟩
  have hne : orient3d a.2.1 b.2.1 c.2.1 d.2.1 ≠ 0 := by
    intro h0
    refine hgp1.planes [a.2.1, b.2.1, c.2.1, d.2.1] rfl ?_ (orient_coplanar h0)
    exact subperm_map (fun x : VId × Pt K × V => x.2.1) (hperm.subperm.trans (List.take_sublist 4 l1).subperm)
  have hat : ∀ x ∈ [a, b, c, d], At m1 x.1 x.2.1 := by
    intro x hx
    have hx' := hperm.mem_iff.1 hx
    obtain ⟨w, hw⟩ := k2 x hx'
    exact ⟨(hmax4 x hx').ne, _, hw, rfl⟩
  have hd1 : Delaunay m1 := by
    have e := hsim a.2.1 b.2.1 c.2.1 d.2.1 hne
    rcases lt_or_gt_of_ne hne with hlt | hgt
    · rw [decide_eq_false (not_lt.2 hlt.le)] at e
      rw [e] at k7
      have e0 : vi 0 = a.1 := by rw [k7]; rfl
      have e1 : vi 1 = b.1 := by rw [k7]; rfl
      have e2 : vi 2 = d.1 := by rw [k7]; rfl
      have e3 : vi 3 = c.1 := by rw [k7]; rfl
      refine k0.delaunay hr1.consistent (p0 := a.2.1) (p1 := b.2.1) (p2 := d.2.1) (p3 := c.2.1) ?_ ?_ ?_ ?_ ?_
      · rw [e0]; exact hat a (by simp)
      · rw [e1]; exact hat b (by simp)
      · rw [e2]; exact hat d (by simp)
      · rw [e3]; exact hat c (by simp)
      · rw [orient_swap2]; linarith
    · rw [decide_eq_true hgt] at e
      rw [e] at k7
      have e0 : vi 0 = a.1 := by rw [k7]; rfl
      have e1 : vi 1 = b.1 := by rw [k7]; rfl
      have e2 : vi 2 = c.1 := by rw [k7]; rfl
      have e3 : vi 3 = d.1 := by rw [k7]; rfl
      refine k0.delaunay hr1.consistent (p0 := a.2.1) (p1 := b.2.1) (p2 := c.2.1) (p3 := d.2.1) ?_ ?_ ?_ ?_ hgt
      · rw [e0]; exact hat a (by simp)
      · rw [e1]; exact hat b (by simp)
      · rw [e2]; exact hat c (by simp)
      · rw [e3]; exact hat d (by simp)
  have B1 : Built m1 (l1.take 4) l.length := by
    refine ⟨hr1, hd1, k0.track, fun v => ?_, fun x hx => ?_, fun u => ?_⟩
    · rw [k0.inMesh, k5]
      constructor
      · rintro ⟨i, rfl⟩
        rcases Fin.eq_castSucc_or_eq_last i with ⟨j, rfl⟩ | rfl
        · exact .inl ⟨j, rfl⟩
        · exact .inr k0.ghost
      · rintro (⟨i, rfl⟩ | rfl)
        · exact ⟨_, rfl⟩
        · exact ⟨4, k0.ghost.symm⟩
    · obtain ⟨w, hw⟩ := k2 x hx
      rw [hw]
      rfl
    · by_cases hu : ∃ y ∈ l1.take 4, u = y.1
      · obtain ⟨y, hy, rfl⟩ := hu
        obtain ⟨w, hw⟩ := k2 y hy
        rw [hw]
        simpa using hids y (List.mem_of_mem_take hy)
      · push Not at hu
        rw [k3 u hu]
        change (vs.get u).isSome ↔ _
        rw [hget]
        simp
  have hv3' : v3 ∈ l1.take 4 := by
    refine List.mem_of_getElem? (i := 3) ?_
    rw [List.getElem?_take, if_pos (by omega), hv3]
  obtain ⟨N, m2, h5, B2⟩ := Built.fold (norm := norm) (tol := tol) (sim := sim) (key := key) (leH := leH) ho room (l1.drop 4) (l1.take 4) B1
    (by rw [← hsplit]; exact hnd) (by rw [← hsplit]; exact hgp1) (by rw [← hsplit]; exact hids) v3 hv3'
  rw [← hsplit] at B2
  have hc2 := B2.ready.consistent
  obtain ⟨ps, h6, h7, h8⟩ := B2.delaunay.solidPositions hc2
  refine ⟨N, { m2 with center := (exactGeo norm tol sim key leH).centre ps }, fun fuel hf => ?_, ?_⟩
  · have hint : ({ m2 with center := (exactGeo norm tol sim key leH).centre ps } : Mesh (Pt K) V T).assertIntegrity []
        (some ((exactGeo norm tol sim key leH).orientOk ((exactGeo norm tol sim key leH).centre ps) m2.position)) = true := by
      refine integrity_of (B2.ready.centre _).consistent B2.track ?_ ?_
      · intro v x hx
        change m2.vertices.get v = some x at hx
        have hv : v < l.length := (B2.stored v).1 (by rw [hx]; rfl)
        have hin : InMesh m2 v := by
          refine (B2.inMesh v).2 (.inl ?_)
          have := ((p1.map (·.1)).trans hl).mem_iff.2 (List.mem_range.2 hv)
          obtain ⟨y, hy, rfl⟩ := List.mem_map.1 this
          exact ⟨y, hy, rfl⟩
        obtain ⟨w, hw⟩ := hin
        rcases hc2.vertexLive w v hw with h | ⟨y, hy, hy'⟩
        · rw [h] at hv
          exact absurd (lt_of_lt_of_le hv hlen) (lt_irrefl _)
        · rw [hx] at hy
          cases hy
          exact hy'
      · exact orientOk_all B2.delaunay hc2 (fun w a b c pa pb pc h ha hb hc =>
          B2.delaunay.centre_behind hc2 h7 h8 w a b c pa pb pc h ha hb hc)
    unfold Mesh.delaunayFromSorted
    refine (bind_step hfirst _).trans ?_
    refine (bind_step hvs _).trans ?_
    refine (bind_step hl1 _).trans ?_
    refine (bind_step k1 _).trans ?_
    refine (bind_step hv3 _).trans ?_
    refine (bind_step (h5 fuel hf) _).trans ?_
    refine (bind_step h6 _).trans ?_
    exact if_pos hint
  · exact ⟨B2.ready.centre _, B2.delaunay.centre _, B2.track, fun v => (B2.inMesh v).trans (or_congr ⟨fun ⟨x, hx, e⟩ =>
      ⟨x, p1.mem_iff.1 hx, e⟩, fun ⟨x, hx, e⟩ => ⟨x, p1.mem_iff.2 hx, e⟩⟩ Iff.rfl),
      fun x hx => B2.payload x (p1.mem_iff.2 hx), B2.stored⟩

end Tet
