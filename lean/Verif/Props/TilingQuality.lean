import Verif.Props.Tiling
import Verif.Props.FlipQuality

/-!
# Improving the quality of a mesh that fills space
-/

namespace Tet
open Spec
variable {K V T : Type} [Field K] [LinearOrder K] [IsStrictOrderedRing K]

/-- The center of the mesh is in no plane of three vertices. -/
def Spec.OffCenter (m : Mesh (Pt K) V T) : Prop :=
  ∀ a b c, [a, b, c, GHOST].Nodup → m.orient a b c GHOST ≠ some 0

theorem Spec.OffCenter.of_mem {m : Mesh (Pt K) V T} (h : OffCenter m) {a b c d : VId} (hn : [a, b, c, d].Nodup)
    (hg : GHOST ∈ [a, b, c, d]) : m.orient a b c d ≠ some 0 := by
  have key : ∀ x y z w, (x, y, z, w) ∈ twelve (a, b, c, d) → w = GHOST → m.orient a b c d ≠ some 0 := by
    intro x y z w hw e
    subst e
    have hs : SameTet (a, b, c, d) (x, y, z, GHOST) := mem_twelve.1 hw
    rw [← orient_same hs]
    refine h x y z ?_
    revert hw
    simp only [twelve, List.mem_cons, Prod.mk.injEq, List.not_mem_nil, or_false]
    simp only [List.nodup_cons, List.mem_cons, List.not_mem_nil, or_false, not_or] at hn ⊢
    rintro (h | h | h | h | h | h | h | h | h | h | h | h) <;> obtain ⟨rfl, rfl, rfl, rfl⟩ := h <;> tauto
  simp only [List.mem_cons, List.not_mem_nil, or_false] at hg
  rcases hg with rfl | rfl | rfl | rfl
  · exact key b d c GHOST (by simp [twelve]) rfl
  · exact key a c d GHOST (by simp [twelve]) rfl
  · exact key a d b GHOST (by simp [twelve]) rfl
  · exact key a b c GHOST (by simp [twelve]) rfl

/-- No quality is below -1, and a tet with a better one is positively oriented. -/
theorem quality_ge {norm : Pt K → K} (hn : ∀ v, 0 ≤ norm v)
    {sim : (VId → Option (Pt K)) → VId → VId → VId → VId → Bool} {nan : Pt K → Bool} (m : Mesh (Pt K) V T) (p : V4) :
    ((-1 : K) : WithTop K) ≤ meshQuality norm sim nan m p := by
  obtain ⟨a, b, c, d⟩ := p
  have hpts : ∀ p0 p1 p2 p3, (-1 : K) ≤ Mesh.qualityPts norm p0 p1 p2 p3 := by
    intro p0 p1 p2 p3
    unfold Mesh.qualityPts
    simp only
    split
    · exact le_rfl
    · rename_i h
      have h1 := not_le.1 h
      refine le_trans (by norm_num : (-1 : K) ≤ 0) (div_nonneg h1.le ?_)
      have : ∀ (l : List (Pt K)) (x : K), 0 ≤ x → 0 ≤ (l.map norm).foldl max x := by
        intro l
        induction l with
        | nil => exact fun _ h => h
        | cons a l ih => exact fun x hx => ih _ (le_max_of_le_left hx)
      exact this _ _ (hn _)
  unfold meshQuality Mesh.quality
  simp only
  split
  · split
    · exact le_top
    · exact le_rfl
  · have : ∀ o : Option (WithTop K), (∀ x, o = some x → ((-1 : K) : WithTop K) ≤ x) → ((-1 : K) : WithTop K) ≤ o.getD ⊤ := by
      rintro (_ | x) h
      · exact le_top
      · exact h x rfl
    refine this _ fun x h => ?_
    simp only [Option.bind_eq_bind, Option.bind_eq_some_iff, Option.pure_def, Option.some.injEq] at h
    obtain ⟨p0, -, p1, -, p2, -, p3, -, rfl⟩ := h
    exact WithTop.coe_le_coe.2 (hpts ..)

theorem quality_positive {norm : Pt K → K} {sim : (VId → Option (Pt K)) → VId → VId → VId → VId → Bool} {nan : Pt K → Bool}
    {m : Mesh (Pt K) V T} (hsim : IsSim m.idxOri (sim m.idxOri)) (hnan : nan m.center = false) (hc : OffCenter m)
    {a b c d : VId} (hd : [a, b, c, d].Nodup) (hp : ∀ v ∈ [a, b, c, d], ∃ p, m.idxOri v = some p)
    (h : ((-1 : K) : WithTop K) < meshQuality norm sim nan m (a, b, c, d)) : Mesh.positive m (a, b, c, d) = true := by
  obtain ⟨pa, ha⟩ := hp a (by simp)
  obtain ⟨pb, hb⟩ := hp b (by simp)
  obtain ⟨pc, hc'⟩ := hp c (by simp)
  obtain ⟨pd, hd'⟩ := hp d (by simp)
  have ho : m.orient a b c d = some (Mesh.ghostSign [a, b, c, d] * orient3d pa pb pc pd) := by
    simp only [Mesh.orient, ha, hb, hc', hd', Option.bind_eq_bind, Option.bind_some, Option.pure_def]
  unfold Mesh.positive
  simp only [ho, decide_eq_true_eq]
  unfold meshQuality Mesh.quality at h
  simp only at h
  by_cases hg : GHOST ∈ [a, b, c, d]
  · rw [if_pos hg, hnan, Bool.false_or] at h
    have h0 := hc.of_mem hd hg
    rw [ho] at h0
    rw [Mesh.ghostSign, if_pos hg] at h0 ⊢
    have h1 : orient3d pa pb pc pd ≠ 0 := by
      intro e
      rw [e, mul_zero] at h0
      exact h0 rfl
    have h2 := hsim.sign a b c d _ _ _ _ ha hb hc' hd' h1
    cases hs : sim m.idxOri a b c d with
    | true =>
      rw [hs] at h
      exact absurd h (lt_irrefl _)
    | false =>
      rw [hs] at h2
      have h3 := of_decide_eq_false h2.symm
      have h4 := lt_of_le_of_ne (not_lt.1 h3) h1
      linarith
  · rw [if_neg hg] at h
    have hs := C08_key_is_even_reordering (a, b, c, d)
    rcases he : evenSorted4 (a, b, c, d) with ⟨a', b', c', d'⟩
    rw [he] at hs h
    have ho' := orient_same (m := m) (show SameTet (a, b, c, d) (a', b', c', d') from hs)
    rw [ho] at ho'
    have ho2 := ho'
    unfold Mesh.orient at ho2
    simp only [Option.bind_eq_bind, Option.bind_eq_some_iff, Option.pure_def, Option.some.injEq] at ho2
    obtain ⟨p0, i0, p1, i1, p2, i2, p3, i3, e⟩ := ho2
    have hg' : GHOST ∉ [a', b', c', d'] := fun h => hg ((SameTet.mem (p := (a, b, c, d)) (q := (a', b', c', d')) hs GHOST).2 h)
    simp only [i0, i1, i2, i3, Option.bind_eq_bind, Option.bind_some, Option.pure_def, Option.getD_some] at h
    rw [← e, Mesh.ghostSign, if_neg hg', one_mul]
    by_contra hh
    rw [Mesh.qualityPts] at h
    simp only [if_pos (not_lt.1 hh)] at h
    exact absurd h (lt_irrefl _)

/-- In a mesh that fills space, flips that improve the quality are flips to positively oriented tets. -/
theorem improves_positive {norm : Pt K → K} (hn : ∀ v, 0 ≤ norm v)
    {sim : (VId → Option (Pt K)) → VId → VId → VId → VId → Bool} {nan : Pt K → Bool} {m : Mesh (Pt K) V T}
    (hm : ConsistentT m) (ht : Tiles m) (hsim : IsSim m.idxOri (sim m.idxOri)) (hnan : nan m.center = false) (hc : OffCenter m)
    {old new taken r} (h : FlipAt m old new taken r) (hi : Improves (meshQuality norm sim nan) m old new) :
    ∀ q ∈ new, Mesh.positive m q = true := by
  have hf := ht.fan hm
  have hold := h.tets hm
  have hD : ∀ q ∈ old, 0 < D (homv m) q := fun q hq => hf.pos _ (hold q hq)
  have hpl : ∀ a b c d, (a, b, c, d) ∈ old → (∃ p, m.idxOri a = some p) ∧ (∃ p, m.idxOri b = some p) ∧
      (∃ p, m.idxOri c = some p) ∧ ∃ p, m.idxOri d = some p := by
    intro a b c d hq
    obtain ⟨pa, pb, pc, pd, i⟩ := hm.placed.four (hold _ hq)
    exact ⟨⟨_, i.1⟩, ⟨_, i.2.1⟩, ⟨_, i.2.2.1⟩, ⟨_, i.2.2.2⟩⟩
  obtain ⟨p, -, hp⟩ := hi
  have key : ∀ a b c d, (a, b, c, d) ∈ new → a ≠ b ∧ a ≠ c ∧ a ≠ d ∧ b ≠ c ∧ b ≠ d ∧ c ≠ d → (∃ p, m.idxOri a = some p) →
      (∃ p, m.idxOri b = some p) → (∃ p, m.idxOri c = some p) → (∃ p, m.idxOri d = some p) →
      Mesh.positive m (a, b, c, d) = true := fun a b c d hq ⟨n1, n2, n3, n4, n5, n6⟩ i1 i2 i3 i4 =>
    quality_positive hsim hnan hc (by simp [n1, n2, n3, n4, n5, n6])
      (by simp only [List.forall_mem_cons]; exact ⟨i1, i2, i3, i4, by simp⟩) (lt_of_le_of_lt (quality_ge hn m p) (hp _ hq))
  cases h with
  | @flip23 w o a b c d e tet adj beyond tri =>
    have d1 := hD (a, b, c, d) (by simp)
    have d2 := hD (b, a, c, e) (by simp)
    have hde : d ≠ e := by
      rintro rfl
      have : D (homv m) (b, a, c, d) = -D (homv m) (a, b, c, d) := Vec4.swap0 ..
      linarith
    obtain ⟨ab, ac, ad, bc, bd, cd⟩ := D_nodup d1.ne'
    obtain ⟨-, -, be, -, ae, ce⟩ := D_nodup d2.ne'
    obtain ⟨ia, ib, ic, id⟩ := hpl a b c d (by simp)
    obtain ⟨-, -, -, ie⟩ := hpl b a c e (by simp)
    simp only [List.forall_mem_cons]
    exact ⟨key _ _ _ _ (by simp) ⟨ab.symm, bd, be, ad, ae, hde⟩ ib ia id ie,
      key _ _ _ _ (by simp) ⟨ac, ad, ae, cd, ce, hde⟩ ia ic id ie,
      key _ _ _ _ (by simp) ⟨bc.symm, cd, ce, bd, be, hde⟩ ic ib id ie, by simp⟩
  | @flip32 w o1 o2 x y c d e tet s1 s2 s3 third edge tris =>
    obtain ⟨xy, xc, xd, yc, yd, cd⟩ := D_nodup (hD (x, y, c, d) (by simp)).ne'
    obtain ⟨-, -, xe, -, ye, de⟩ := D_nodup (hD (x, y, d, e) (by simp)).ne'
    obtain ⟨-, -, -, -, -, ec⟩ := D_nodup (hD (x, y, e, c) (by simp)).ne'
    obtain ⟨ix, iy, ic, id⟩ := hpl x y c d (by simp)
    obtain ⟨-, -, -, ie⟩ := hpl x y d e (by simp)
    simp only [List.forall_mem_cons]
    exact ⟨key _ _ _ _ (by simp) ⟨cd.symm, de, xd.symm, ec.symm, xc.symm, xe.symm⟩ id ic ie ix,
      key _ _ _ _ (by simp) ⟨cd, ec.symm, yc.symm, de, yd.symm, ye.symm⟩ ic id ie iy, by simp⟩
  | @flip44 w a1 a2 a3 x y p q r s tet s1 s2 s3 s4 ne third fourth edge tris =>
    have d1 := hD (x, y, p, q) (by simp)
    have d2 := hD (x, y, q, r) (by simp)
    have rp : r ≠ p := by
      rintro rfl
      have : D (homv m) (x, y, q, r) = -D (homv m) (x, y, r, q) := Vec4.swap2 ..
      linarith
    obtain ⟨xy, xp, xq, yp, yq, pq⟩ := D_nodup d1.ne'
    obtain ⟨-, -, xr, -, yr, qr⟩ := D_nodup d2.ne'
    obtain ⟨-, -, xs, -, ys, rs⟩ := D_nodup (hD (x, y, r, s) (by simp)).ne'
    obtain ⟨-, -, -, -, -, sp⟩ := D_nodup (hD (x, y, s, p) (by simp)).ne'
    obtain ⟨ix, iy, ip, iq⟩ := hpl x y p q (by simp)
    obtain ⟨-, -, ir, is⟩ := hpl x y r s (by simp)
    simp only [List.forall_mem_cons]
    exact ⟨key _ _ _ _ (by simp) ⟨rp, qr.symm, yr.symm, pq, yp.symm, yq.symm⟩ ir ip iq iy,
      key _ _ _ _ (by simp) ⟨rp, yr.symm, rs, yp.symm, sp.symm, ys⟩ ir ip iy is,
      key _ _ _ _ (by simp) ⟨rp, rs, xr.symm, sp.symm, xp.symm, xs.symm⟩ ir ip is ix,
      key _ _ _ _ (by simp) ⟨rp, xr.symm, qr.symm, xp.symm, pq, xq⟩ ir ip ix iq, by simp⟩

theorem QualityRun.recover {norm : Pt K → K} (hn : ∀ v, 0 ≤ norm v)
    {sim : (VId → Option (Pt K)) → VId → VId → VId → VId → Bool} {nan : Pt K → Bool} {m m' : Mesh (Pt K) V T}
    (h : QualityRun (meshQuality norm sim nan) m m')
    (hm : ConsistentT m) (ht : Tiles m) (hsim : IsSim m.idxOri (sim m.idxOri)) (hnan : nan m.center = false) (hc : OffCenter m) :
    RecoverRun Mesh.positive m m' := by
  induction h with
  | refl m => exact .refl m
  | @step m m1 m2 h1 _ ih =>
    obtain ⟨old, new, h2, h3, -⟩ := h1
    have hd := h2.done hm
    have h2' := h2
    obtain ⟨taken, ws, h4, -, -⟩ := h2'
    have hp := improves_positive hn hm ht hsim hnan hc h4 h3
    have e := sameVertices_idxOri hd.verts
    refine .flip h2 hp (ih hd.cons (ht.flip hm h4 hp hd) ?_ ?_ ?_)
    · rw [e]; exact hsim
    · rw [hd.verts.2.1]; exact hnan
    · intro a b c hn
      have := hc a b c hn
      rwa [Mesh.orient, e]

/-- There is always an id left after flips in a mesh that fills space. -/
theorem Spec.Tiles.room {m m1 : Mesh (Pt K) V T} (hm : ConsistentT m) (ht : Tiles m) (hroom : Spacious m)
    (hr : RecoverRun Mesh.positive m m1) : Room m1 := by
  obtain ⟨k1, k2, -, -⟩ := run_keeps hr hm (C46_orient m) (ht.oriented hm)
  obtain ⟨nV, nT, h1, h2, h3⟩ := hroom
  refine ⟨m1.tets.size, m1.edges.size, numTets_of k1 rfl, numEdges_of k1 rfl, ?_⟩
  have e1 := run_counts hr hm
  have e2 := numTets_eq hm h2
  have hV : m1.numVertices = some nV := by
    rw [Mesh.numVertices, k1.stored.1.len_eq, vertices_count hm k1 k2, ← hm.stored.1.len_eq]
    exact h1
  have e3 := edges_le k1.toSpec hV (numEdges_of k1 rfl)
  omega

/-- C74: `flip_quality` in a mesh that fills space ends without a panic; the new mesh fills space, has the same vertices
and locks, and the worst quality is not lower. -/
theorem C74_quality {norm : Pt K → K} (hn : ∀ v, 0 ≤ norm v) {sim : (VId → Option (Pt K)) → VId → VId → VId → VId → Bool}
    {nan : Pt K → Bool} {m : Mesh (Pt K) V T} (hm : Consistent m) (ht : Tiles m) (hroom : Spacious m)
    (hsim : IsSim m.idxOri (sim m.idxOri)) (hnan : nan m.center = false) (hc : OffCenter m)
    (hi : m.trackTriMap = true ∨ ∀ s, m.triMap s = none) :
    ∃ N m', (∀ fuel ≥ N, m.flipQuality (meshQuality norm sim nan) fuel = some m') ∧
      QualityRun (meshQuality norm sim nan) m m' ∧ Consistent m' ∧ SameVertices m m' ∧ SameLocks m m' ∧ Tiles m' ∧
      ∀ k, (∀ p, HasTet m p → k ≤ meshQuality norm sim nan m p) → ∀ p, HasTet m' p → k ≤ meshQuality norm sim nan m' p := by
  have hg := C58_quality (norm := norm) (nan := nan) hsim
  have hT := hm.toT
  rcases C58_run hm hg hi with ⟨m1, h1, h2⟩ | ⟨N, m', h1, h2⟩
  · exfalso
    have hr := QualityRun.recover hn h1 hT ht hsim hnan hc
    obtain ⟨k1, k2, -⟩ := C58_keeps hm hg h1
    have e := sameVertices_idxOri k2
    have ht1 := Tiles.run hr hT ht
    rcases h2 with ⟨old, new, ⟨taken, r, h3, h4⟩, h5⟩ | h2
    · refine ht1.no_clash k1.toT h3 (improves_positive hn k1.toT ht1 ?_ ?_ ?_ h3 h5) h4
      · rw [e]; exact hsim
      · rw [k2.2.1]; exact hnan
      · intro a b c hn
        have := hc a b c hn
        rwa [Mesh.orient, e]
    · exact h2 (ht.room hT hroom hr)
  · obtain ⟨k1, k2, k3, -, k5, -⟩ := C58_keeps hm hg h1
    exact ⟨N, m', h2, h1, k1, k2, k3, Tiles.run (QualityRun.recover hn h1 hT ht hsim hnan hc) hT ht, k5⟩

/-! ## Example -/

def offCenterCheck (m : Mesh (Pt ℚ) Nat Unit) : Bool :=
  m.vertices.keys.all fun a => m.vertices.keys.all fun b => m.vertices.keys.all fun c =>
    decide (a = b ∨ a = c ∨ b = c ∨ a = GHOST ∨ b = GHOST ∨ c = GHOST ∨ m.orient a b c GHOST ≠ some 0)

theorem offCenter_of_check {m : Mesh (Pt ℚ) Nat Unit} (h : offCenterCheck m = true) : OffCenter m := by
  intro a b c hn ho
  simp only [List.nodup_cons, List.mem_cons, List.not_mem_nil, or_false, not_or, List.nodup_nil, and_true, not_false_eq_true] at hn
  obtain ⟨⟨ab, ac, ag⟩, ⟨bc, bg⟩, cg⟩ := hn
  have hk : ∀ v p, v ≠ GHOST → m.idxOri v = some p → v ∈ m.vertices.keys := by
    intro v p hv hp
    unfold Mesh.idxOri Mesh.idx at hp
    rw [if_neg hv] at hp
    obtain ⟨x, hx, -⟩ := Option.map_eq_some_iff.1 hp
    exact IdMap.mem_keys.2 (by simp [hx])
  have ho' := ho
  unfold Mesh.orient at ho'
  simp only [Option.bind_eq_bind, Option.bind_eq_some_iff] at ho'
  obtain ⟨pa, ia, pb, ib, pc, ic, -⟩ := ho'
  have := of_decide_eq_true (List.all_eq_true.1 (List.all_eq_true.1 (List.all_eq_true.1 h a (hk a _ ag ia)) b (hk b _ bg ib)) c (hk c _ cg ic))
  tauto

/-- `ratA` with a center that is in no plane of three vertices. -/
def ratOff : Option (Mesh (Pt ℚ) Nat Unit) := ratA.map fun m => { m with center := ⟨1 / 5, 1 / 4, 3 / 10⟩ }

theorem ratOff_tiles : ∃ m, ratOff = some m ∧ Consistent m ∧ Tiles m ∧ m.trackTriMap = true ∧ Spacious m := by
  obtain ⟨m, h1, h2, h3, -, -, -, -, h5⟩ := ratA_tiles
  let m' : Mesh (Pt ℚ) Nat Unit := { m with center := ⟨1 / 5, 1 / 4, 3 / 10⟩ }
  have h1' : ratOff = some m' := by rw [ratOff, h1]; rfl
  have h2' : Consistent m' := by
    have hc := h2.toT
    exact ConsistentT.toSpec ⟨hc.stored, hc.adj, hc.distinct, hc.vref, hc.vlive, hc.eptr, hc.eunique, hc.eused,
      hc.tunique, hc.ring, hc.locks, hc.tsound, hc.tcomplete⟩
  have hp := positive_of_check (of_map (f := positiveCheck) h1' (by decide +kernel))
  have ho := offPlanes_of_check (of_map (f := fun m => offPlanesCheck m ⟨1 / 7, 1 / 5, 1 / 3⟩) h1' (by decide +kernel))
  have hl := layers_check (of_map (f := fun m => holdersCheck m ⟨1 / 7, 1 / 5, 1 / 3⟩) (b := [0]) h1' (by decide +kernel)) (by decide)
  exact ⟨m', h1', h2', (C75_criterion h2' hp ho).2 hl, h3, h5⟩

/-- All hypotheses of `C74_quality`; there are two solid tets to improve. -/
example : ∃ (m : Mesh (Pt ℚ) Nat Unit) (sim : (VId → Option (Pt ℚ)) → VId → VId → VId → VId → Bool), ratOff = some m ∧ Consistent m ∧
    Tiles m ∧ Spacious m ∧ IsSim m.idxOri (sim m.idxOri) ∧ OffCenter m ∧ m.trackTriMap = true ∧
    (∀ v : Pt ℚ, 0 ≤ |v.x| + |v.y| + |v.z|) := by
  obtain ⟨m, h1, h2, h3, h4, h5⟩ := ratOff_tiles
  obtain ⟨sim, hs⟩ := sim_exists m.idxOri
  exact ⟨m, fun _ => sim, h1, h2, h3, h5, hs,
    offCenter_of_check (of_map (f := offCenterCheck) h1 (by decide +kernel)), h4, fun v => by positivity⟩

end Tet
