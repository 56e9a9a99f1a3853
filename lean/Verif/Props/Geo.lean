import Verif.Proofs.Alt
import Verif.Props.FlipLaws
import Verif.Props.Walker
import Mathlib.Tactic.NormNum
import Mathlib.Data.Real.Sqrt

/-!
# C15, C35–C40, C57, C59: geometric predicates in exact arithmetic
-/

namespace Tet
open Spec
variable {K : Type} [Field K] {V T : Type}

/-- The tet with corners 0, e₁, e₂, e₃, in exact arithmetic. -/
def rat5 : Option (Mesh (Pt ℚ) Nat Unit) :=
  Mesh.new (fun a b c d => decide (0 < orient3d a b c d)) Pt.centroid4 ⟨0, 0, 0⟩
    (⟨0, 0, 0⟩, 0) (⟨1, 0, 0⟩, 1) (⟨0, 1, 0⟩, 2) (⟨0, 0, 1⟩, 3) ()

theorem Spec.At.idx {m : Mesh (Pt K) V T} {v : VId} {p : Pt K} (h : At m v p) : m.idx v = some p := by
  obtain ⟨-, x, h1, rfl⟩ := h
  simp [Mesh.idx, h1]

theorem Spec.At.idxOri {m : Mesh (Pt K) V T} {v : VId} {p : Pt K} (h : At m v p) : m.idxOri v = some p := by
  rw [Mesh.idxOri, if_neg h.1, h.idx]

theorem idxOri_ghost (m : Mesh (Pt K) V T) : m.idxOri GHOST = some m.center := by
  rw [Mesh.idxOri, if_pos rfl]

theorem mem4_ghost {a b c d : VId} : GHOST ∈ [a, b, c, d] ↔ a = GHOST ∨ b = GHOST ∨ c = GHOST ∨ d = GHOST := by
  simp only [List.mem_cons, List.not_mem_nil, or_false, eq_comm]

theorem ghostSign4 {a b c d : VId} (h : a ≠ GHOST ∧ b ≠ GHOST ∧ c ≠ GHOST ∧ d ≠ GHOST) :
    (Mesh.ghostSign [a, b, c, d] : K) = 1 := by
  rw [Mesh.ghostSign, if_neg]
  rw [mem4_ghost]
  tauto

/-! ## C35 -/

/-- Every permutation of the arguments of `orient_3d` multiplies the result by its sign, wherever
the ghost vertex is (`none`, a panic, stays a panic). -/
theorem C35_permute (m : Mesh (Pt K) V T) (v : Fin 4 → VId) (σ : Equiv.Perm (Fin 4)) :
    m.orient (v (σ 0)) (v (σ 1)) (v (σ 2)) (v (σ 3)) =
      (m.orient (v 0) (v 1) (v 2) (v 3)).map fun x => ((Equiv.Perm.sign σ : ℤ) : K) * x := by
  rw [alt_perm4 (fun x : Option K => x.map (-·)) map_neg_neg m.orient (fun _ => True) (fun _ _ _ => trivial)
    (fun a b c d _ => (orient_alt m a b c d).1) (fun a b c d _ => (orient_alt m a b c d).2.1)
    (fun a b c d _ => (orient_alt m a b c d).2.2) σ v trivial]
  rcases Int.units_eq_one_or (Equiv.Perm.sign σ) with h | h
  · simp [h]
  · simp [h]

/-- Solid vertices: the determinant of the positions. -/
theorem C35_solid {m : Mesh (Pt K) V T} {a b c d : VId} {pa pb pc pd : Pt K} (ha : At m a pa)
    (hb : At m b pb) (hc : At m c pc) (hd : At m d pd) : m.orient a b c d = some (orient3d pa pb pc pd) := by
  simp [Mesh.orient, ha.idxOri, hb.idxOri, hc.idxOri, hd.idxOri, ghostSign4 ⟨ha.1, hb.1, hc.1, hd.1⟩]

/-- With the ghost vertex: minus the determinant with the ghost vertex at the centre of the mesh. -/
theorem C35_ghost {m : Mesh (Pt K) V T} {a b c : VId} {pa pb pc : Pt K} (ha : At m a pa)
    (hb : At m b pb) (hc : At m c pc) : m.orient a b c GHOST = some (-orient3d pa pb pc m.center) := by
  simp [Mesh.orient, ha.idxOri, hb.idxOri, hc.idxOri, idxOri_ghost, Mesh.ghostSign]

/-- With two equal arguments it is zero. -/
theorem C35_equal [CharZero K] (m : Mesh (Pt K) V T) (v : Fin 4 → VId) {i j : Fin 4} (hij : i ≠ j) (h : v i = v j)
    {x : K} (hx : m.orient (v 0) (v 1) (v 2) (v 3) = some x) : x = 0 := by
  have := C35_permute m v (Equiv.swap i j)
  have e : ∀ k, v (Equiv.swap i j k) = v k := by
    intro k
    rcases eq_or_ne k i with rfl | h1
    · rw [Equiv.swap_apply_left, h]
    · rcases eq_or_ne k j with rfl | h2
      · rw [Equiv.swap_apply_right, h]
      · rw [Equiv.swap_apply_of_ne_of_ne h1 h2]
  simp only [e, hx, Equiv.Perm.sign_swap hij] at this
  simp at this
  exact self_eq_neg.1 this

-- a permutation with the ghost vertex, a repeated vertex
example : (rat5.bind fun m => m.orient 0 1 2 3) = some (-1) ∧
    (rat5.bind fun m => m.orient 0 1 3 GHOST) = some (-1 / 4) ∧
    (rat5.bind fun m => m.orient GHOST 1 3 0) = some (1 / 4) ∧
    (rat5.bind fun m => m.orient GHOST 1 3 1) = some 0 := by decide +kernel

/-! ## C15 -/

section
variable [LinearOrder K] [IsStrictOrderedRing K]

theorem new_center {orient : Pt K → Pt K → Pt K → Pt K → Bool} {centroid} {nan : Pt K} {v0 v1 v2 v3 : Pt K × V} {dt : T}
    {m : Mesh (Pt K) V T} (h : Mesh.new orient centroid nan v0 v1 v2 v3 dt = some m) :
    ∃ ps, m.tetPositions 0 = some ps ∧ m.center = centroid ps := by
  unfold Mesh.new at h
  obtain ⟨m0, h0, h⟩ := Option.bind_eq_some_iff.1 h
  obtain ⟨ps, h1, h⟩ := Option.bind_eq_some_iff.1 h
  simp only [Option.pure_def, Option.some.injEq] at h
  subst h
  exact ⟨ps, h1, rfl⟩

theorem orient_centroid (a b c d : Pt K) :
    -orient3d b c d (Pt.centroid4 (a, b, c, d)) = orient3d a b c d / 4 ∧
    -orient3d a d c (Pt.centroid4 (a, b, c, d)) = orient3d a b c d / 4 ∧
    -orient3d d a b (Pt.centroid4 (a, b, c, d)) = orient3d a b c d / 4 ∧
    -orient3d c b a (Pt.centroid4 (a, b, c, d)) = orient3d a b c d / 4 := by
  refine ⟨?_, ?_, ?_, ?_⟩ <;>
  · simp only [orient3d, Pt.centroid4, Pt.sub, Pt.dot, Pt.cross, Pt.smul, Pt.add]
    field_simp
    ring

/-- In a new mesh made of four points not in one plane, with an orientation test that is right for
them, every tet has positive orientation in whatever order a walker lists its vertices: the solid
one and the four ghost ones. -/
theorem C15_positive (orient : Pt K → Pt K → Pt K → Pt K → Bool) (nan : Pt K) (v0 v1 v2 v3 : Pt K × V) (dt : T)
    (hv : orient3d v0.1 v1.1 v2.1 v3.1 ≠ 0)
    (ho : orient v0.1 v1.1 v2.1 v3.1 = true ↔ 0 < orient3d v0.1 v1.1 v2.1 v3.1) :
    ∃ m, Mesh.new orient Pt.centroid4 nan v0 v1 v2 v3 dt = some m ∧
      ∀ w a b c d, m.tet4 w = some (a, b, c, d) → ∃ x, m.orient a b c d = some x ∧ 0 < x := by
  obtain ⟨m, h1, hm, -, -, -, h2, a, b, c, d, h3, h4, -, h5⟩ := C14_new orient Pt.centroid4 nan v0 v1 v2 v3 dt
  obtain ⟨ps, g1, g2⟩ := new_center h1
  refine ⟨m, h1, ?_⟩
  have hat : ∀ i : Fin 4, At m i.val ((![v0, v1, v2, v3] : Fin 4 → Pt K × V) i).1 := by
    intro i
    obtain ⟨x, hx, e⟩ := h2 i
    refine ⟨?_, x, hx, ?_⟩
    · have := i.isLt
      simp only [GHOST, idMax]
      omega
    · rw [← e]
  have a0 := hat 0
  have a1 := hat 1
  have a2 := hat 2
  have a3 := hat 3
  simp only [Fin.val_zero, Fin.val_one, Fin.val_two, Matrix.cons_val_zero, Matrix.cons_val_one] at a0 a1 a2 a3
  -- the four corners in positive order
  have key : ∃ pa pb pc pd, At m a pa ∧ At m b pb ∧ At m c pc ∧ At m d pd ∧ 0 < orient3d pa pb pc pd := by
    by_cases hp : orient v0.1 v1.1 v2.1 v3.1 = true
    · rw [if_pos hp] at h3
      simp only [Prod.mk.injEq] at h3
      obtain ⟨rfl, rfl, rfl, rfl⟩ := h3
      exact ⟨_, _, _, _, a0, a1, a2, a3, ho.1 hp⟩
    · rw [if_neg hp] at h3
      simp only [Prod.mk.injEq] at h3
      obtain ⟨rfl, rfl, rfl, rfl⟩ := h3
      refine ⟨_, _, _, _, a0, a1, a3, a2, ?_⟩
      rw [orient_swap23]
      have := mt ho.2 hp
      exact neg_pos.2 (lt_of_le_of_ne (not_lt.1 this) hv)
  obtain ⟨pa, pb, pc, pd, ha, hb, hc, hd, hpos⟩ := key
  have hcen : m.center = Pt.centroid4 (pa, pb, pc, pd) := by
    obtain ⟨t, ht, -⟩ := Mesh.tet4_iff.1 h4
    simp only at ht
    have h4' := tet4_at ht
    rw [h4, Option.some.injEq] at h4'
    simp only [Prod.mk.injEq] at h4'
    obtain ⟨rfl, rfl, rfl, rfl⟩ := h4'
    obtain ⟨-, xa, ga, rfl⟩ := ha
    obtain ⟨-, xb, gb, rfl⟩ := hb
    obtain ⟨-, xc, gc, rfl⟩ := hc
    obtain ⟨-, xd, gd, rfl⟩ := hd
    simp only [Mesh.tetPositions, ht, ga, gb, gc, gd, Option.bind_eq_bind, Option.bind_some, Option.pure_def,
      Option.some.injEq] at g1
    rw [g2, g1]
  intro w x y z t hw
  obtain ⟨p, hp, hs⟩ := (h5 (x, y, z, t)).1 ⟨w, hw⟩
  obtain ⟨σ, hσ, hj⟩ := hs
  have hpm := C35_permute m (quad p) σ
  simp only [← hj, hσ] at hpm
  simp only [quad, Matrix.cons_val_zero, Matrix.cons_val_one, Units.val_one, Int.cast_one, one_mul,
    Option.map_id'] at hpm
  have hpm' : m.orient x y z t = m.orient p.1 p.2.1 p.2.2.1 p.2.2.2 := hpm
  rw [hpm']
  simp only [List.mem_cons, List.not_mem_nil, or_false] at hp
  rcases hp with rfl | rfl | rfl | rfl | rfl
  · exact ⟨_, C35_solid ha hb hc hd, hpos⟩
  · refine ⟨_, C35_ghost hb hc hd, ?_⟩
    rw [hcen, (orient_centroid _ _ _ _).1]
    linarith
  · refine ⟨_, C35_ghost ha hd hc, ?_⟩
    rw [hcen, (orient_centroid _ _ _ _).2.1]
    linarith
  · refine ⟨_, C35_ghost hd ha hb, ?_⟩
    rw [hcen, (orient_centroid _ _ _ _).2.2.1]
    linarith
  · refine ⟨_, C35_ghost hc hb ha, ?_⟩
    rw [hcen, (orient_centroid _ _ _ _).2.2.2]
    linarith


example : ∃ m, Mesh.new (fun a b c d => decide (0 < orient3d a b c d)) Pt.centroid4 (⟨0, 0, 0⟩ : Pt ℚ)
    (⟨0, 0, 0⟩, 0) (⟨1, 0, 0⟩, 1) (⟨0, 1, 0⟩, 2) (⟨0, 0, 1⟩, 3) () = some m ∧
      ∀ w a b c d, m.tet4 w = some (a, b, c, d) → ∃ x, m.orient a b c d = some x ∧ 0 < x :=
  C15_positive _ _ _ _ _ _ _ (by decide +kernel) (by decide +kernel)

/-- `rat5` with two more vertices, one inside the tet and one outside, not yet in tets. -/
def ratV : Option (Mesh (Pt ℚ) Nat Unit) := rat5.bind fun m =>
  (m.vertices.insert (Vertex.new invalidWalker ⟨1 / 5, 1 / 5, 1 / 5⟩ 4)).bind fun r =>
  (r.1.insert (Vertex.new invalidWalker ⟨2, 2, 2⟩ 5)).map fun r => { m with vertices := r.1 }

def ratPos : Fin 6 → Pt ℚ :=
  ![⟨0, 0, 0⟩, ⟨1, 0, 0⟩, ⟨0, 1, 0⟩, ⟨0, 0, 1⟩, ⟨1 / 5, 1 / 5, 1 / 5⟩, ⟨2, 2, 2⟩]

theorem ratV_ok : ∃ m, ratV = some m ∧ Consistent m ∧ ∀ i : Fin 6, At m i.val (ratPos i) := by
  obtain ⟨m, h1, h2, -⟩ := C14_new (fun a b c d => decide (0 < orient3d a b c d)) Pt.centroid4 (⟨0, 0, 0⟩ : Pt ℚ)
    (⟨0, 0, 0⟩, 0) (⟨1, 0, 0⟩, 1) (⟨0, 1, 0⟩, 2) (⟨0, 0, 1⟩, 3) ()
  have h1 : rat5 = some m := h1
  have h3 : ratV.isSome = true := by decide +kernel
  obtain ⟨m', h3⟩ := Option.isSome_iff_exists.1 h3
  have h4 := h3
  rw [ratV, h1, Option.bind_some] at h4
  obtain ⟨⟨v1, i1⟩, h5, h4⟩ := Option.bind_eq_some_iff.1 h4
  obtain ⟨⟨v2, i2⟩, h6, h4⟩ := Option.map_eq_some_iff.1 h4
  have c1 := (h2.toT.addVertex h5).1
  have c2 := (ConsistentT.addVertex (m := { m with vertices := v1 }) c1 h6).1
  refine ⟨m', h3, ?_, fun i => ?_⟩
  · rw [← h4]
    exact c2.toSpec
  · have hp : ∀ i : Fin 6, (ratV.map fun m => (m.vertices.get i.val).map (·.position)) = some (some (ratPos i)) := by
      decide +kernel
    have := of_map (f := fun m => (m.vertices.get i.val).map (·.position)) h3 (hp i)
    simp only [Option.map_eq_some_iff] at this
    refine ⟨?_, this⟩
    have := i.isLt
    simp only [GHOST, idMax]
    omega

/-! ## C36 -/

theorem orient_same {m : Mesh (Pt K) V T} {a b c d a' b' c' d' : VId} (h : SameTet (a, b, c, d) (a', b', c', d')) :
    m.orient a' b' c' d' = m.orient a b c d :=
  alt_even (fun x : Option K => x.map (-·)) map_neg_neg m.orient (fun _ => True) (fun _ _ _ => trivial)
    (fun a b c d _ => (orient_alt m a b c d).1) (fun a b c d _ => (orient_alt m a b c d).2.1)
    (fun a b c d _ => (orient_alt m a b c d).2.2) h trivial

theorem tet_same {m : Mesh (Pt K) V T} {w w' : Walker} (hww : w.tet = w'.tet) {q q' : V4} (hw : m.tet4 w = some q)
    (hw' : m.tet4 w' = some q') : SameTet q q' := by
  obtain ⟨t, h1, h2⟩ := Mesh.tet4_iff.1 hw
  obtain ⟨t', h3, h4⟩ := Mesh.tet4_iff.1 hw'
  rw [← hww, h1] at h3
  obtain rfl := Option.some.inj h3
  have e1 := t.rearr_tet w.edge
  have e2 := t.rearr_tet w'.edge
  rw [h2] at e1
  rw [h4] at e2
  exact EvenRearr.trans (EvenRearr.symm e1) e2

theorem tet_at {m : Mesh (Pt K) V T} (hm : Consistent m) {w : Walker} {a b c d : VId}
    (hw : m.tet4 w = some (a, b, c, d)) (hs : GHOST ∉ [a, b, c, d]) :
    ∃ pa pb pc pd, At m a pa ∧ At m b pb ∧ At m c pc ∧ At m d pd := by
  rw [mem4_ghost, not_or, not_or, not_or] at hs
  have key : ∀ (w : Walker) (a b c d : VId), m.tet4 w = some (a, b, c, d) → a ≠ GHOST → ∃ p, At m a p := by
    intro w a b c d h hg
    have := hm.vertexLive w a (tet4_parts h).1
    rcases this with h | ⟨x, hx, -⟩
    · exact absurd h hg
    · exact ⟨_, hg, x, hx, rfl⟩
  obtain ⟨pa, ha⟩ := key _ _ _ _ _ hw hs.1
  obtain ⟨pb, hb⟩ := key _ _ _ _ _ (tet4_twin hw) hs.2.1
  have ho : m.tet4 w.opp = some (c, d, a, b) := by
    rw [(walker_moves w).2.2.2.2.2]; exact tet4_perm hw _
  obtain ⟨pc, hc⟩ := key _ _ _ _ _ ho hs.2.2.1
  obtain ⟨pd, hd⟩ := key _ _ _ _ _ (tet4_twin ho) hs.2.2.2
  exact ⟨_, _, _, _, ha, hb, hc, hd⟩

theorem ghost_same {a b c d a' b' c' d' : VId} (h : SameTet (a, b, c, d) (a', b', c', d')) :
    GHOST ∈ [a', b', c', d'] ↔ GHOST ∈ [a, b, c, d] := by
  obtain ⟨σ, -, hj⟩ := h
  have e : ∀ q : V4, GHOST ∈ [q.1, q.2.1, q.2.2.1, q.2.2.2] ↔ ∃ i, quad q i = GHOST := by
    intro q
    rw [mem4_ghost, Fin.exists_fin_succ, Fin.exists_fin_succ, Fin.exists_fin_succ, Fin.exists_fin_succ]
    simp [quad]
  rw [e (a', b', c', d'), e (a, b, c, d)]
  constructor
  · rintro ⟨i, hi⟩
    exact ⟨σ i, by rw [← hj, hi]⟩
  · rintro ⟨i, hi⟩
    exact ⟨σ.symm i, by rw [hj, σ.apply_symm_apply, hi]⟩

theorem volume_at {m : Mesh (Pt K) V T} (hm : Consistent m) {w : Walker} {a b c d : VId}
    (hw : m.tet4 w = some (a, b, c, d)) (hs : GHOST ∉ [a, b, c, d]) :
    ∃ x, m.tetVolumeX6 w.tet = some (some x) ∧ m.orient a b c d = some x := by
  obtain ⟨t, ht, -⟩ := Mesh.tet4_iff.1 hw
  have h3 := tet4_at ht
  have hsm := tet_same (w := w) (w' := ⟨w.tet, 3⟩) rfl hw h3
  have hs' := mt (ghost_same hsm).1 hs
  obtain ⟨p0, p1, p2, p3, h0, h1, h2, h3⟩ := tet_at hm h3 hs'
  refine ⟨orient3d p0 p1 p2 p3, ?_, ?_⟩
  · simp only [Mesh.tetVolumeX6, ht, Option.bind_eq_bind, Option.bind_some, if_neg hs', h0.idx, h1.idx, h2.idx,
      h3.idx, Option.pure_def, Option.some.injEq]
    simp only [orient3d, Pt.sub, Pt.dot, Pt.cross]
    ring
  · rw [← orient_same hsm]
    exact C35_solid h0 h1 h2 h3

/-- The four vertices of a live tet, in the order of a walker. -/
theorem C36_ghost {m : Mesh (Pt K) V T} (hm : Consistent m) {w : Walker} {a b c d : VId}
    (hw : m.tet4 w = some (a, b, c, d)) :
    m.tetVolumeX6 w.tet = some none ↔ GHOST ∈ [a, b, c, d] := by
  obtain ⟨t, ht, -⟩ := Mesh.tet4_iff.1 hw
  have h3 := tet4_at ht
  have hsm := tet_same (w := w) (w' := ⟨w.tet, 3⟩) rfl hw h3
  by_cases hg : GHOST ∈ [a, b, c, d]
  · simp only [hg, iff_true]
    simp only [Mesh.tetVolumeX6, ht, Option.bind_eq_bind, Option.bind_some, if_pos ((ghost_same hsm).2 hg), Option.pure_def]
  · obtain ⟨x, hx, -⟩ := volume_at hm hw hg
    simp [hx, hg]

example : ((List.range 5).map fun k => rat5.bind fun m => m.tetVolumeX6 k) =
    [some (some 1), some none, some none, some none, some none] := by decide +kernel

/-- The volume of a solid tet is the orientation of its vertices as any walker lists them. -/
theorem C36_volume {m : Mesh (Pt K) V T} (hm : Consistent m) {w : Walker} {a b c d : VId}
    (hw : m.tet4 w = some (a, b, c, d)) (hs : GHOST ∉ [a, b, c, d]) :
    ∃ x, m.tetVolumeX6 w.tet = some (some x) ∧ m.orient a b c d = some x ∧
      m.tetVolume w.tet = some (some (x / 6)) := by
  obtain ⟨x, hx, ho⟩ := volume_at hm hw hs
  exact ⟨x, hx, ho, by simp [Mesh.tetVolume, hx]⟩

/-- The centroid of a positively oriented tet is strictly inside it. -/
theorem C36_centroid {m : Mesh (Pt K) V T} (hm : Consistent m) {w : Walker} {a b c d : VId}
    (hw : m.tet4 w = some (a, b, c, d)) {pa pb pc pd : Pt K} (ha : At m a pa) (hb : At m b pb) (hc : At m c pc)
    (hd : At m d pd) :
    ∃ p, m.tetCentroid w.tet = some (some p) ∧ InTet pa pb pc pd p := by
  obtain ⟨t, ht, -⟩ := Mesh.tet4_iff.1 hw
  have h3 := tet4_at ht
  have hsm := tet_same (w := w) (w' := ⟨w.tet, 3⟩) rfl hw h3
  have hs' : GHOST ∉ [t.vertices 0, t.vertices 1, t.vertices 2, t.vertices 3] := by
    refine mt (ghost_same hsm).1 ?_
    rw [mem4_ghost]
    simp [ha.1, hb.1, hc.1, hd.1]
  obtain ⟨p0, p1, p2, p3, h0, h1, h2, h3⟩ := tet_at hm h3 hs'
  refine ⟨Pt.centroid4 (p0, p1, p2, p3), ?_, 1 / 4, 1 / 4, 1 / 4, 1 / 4, by norm_num, by norm_num, by norm_num,
    by norm_num, by norm_num, ?_⟩
  · simp only [Mesh.tetCentroid, ht, Option.bind_eq_bind, Option.bind_some, if_neg hs', h0.idx, h1.idx, h2.idx,
      h3.idx, Option.pure_def]
  · obtain ⟨σ, -, hj⟩ := hsm
    have hP : ∀ i, m.idx (quad (a, b, c, d) i) = some ((![pa, pb, pc, pd] : Fin 4 → Pt K) i) := by
      intro i
      fin_cases i
      exacts [ha.idx, hb.idx, hc.idx, hd.idx]
    have hQ : ∀ i, m.idx (t.vertices i) = some ((![p0, p1, p2, p3] : Fin 4 → Pt K) i) := by
      intro i
      fin_cases i
      exacts [h0.idx, h1.idx, h2.idx, h3.idx]
    have hPQ : ∀ i, (![p0, p1, p2, p3] : Fin 4 → Pt K) i = (![pa, pb, pc, pd] : Fin 4 → Pt K) (σ i) := by
      intro i
      have := hj i
      have e : quad (t.vertices 0, t.vertices 1, t.vertices 2, t.vertices 3) i = t.vertices i := by
        fin_cases i <;> rfl
      rw [e] at this
      have := hQ i
      rw [‹t.vertices i = _›, hP] at this
      exact (Option.some.inj this).symm
    have hsum : ∀ g : Pt K → K, g p0 + g p1 + g p2 + g p3 = g pa + g pb + g pc + g pd := by
      intro g
      have := Equiv.sum_comp σ (fun i => g ((![pa, pb, pc, pd] : Fin 4 → Pt K) i))
      simp only [← hPQ, Fin.sum_univ_four] at this
      exact this
    have hx := hsum Pt.x
    have hy := hsum Pt.y
    have hz := hsum Pt.z
    simp only [comb, Pt.centroid4, Pt.smul, Pt.add]
    ext
    · show _ = 1 / 4 * (p0.x + p1.x + p2.x + p3.x)
      rw [hx]; ring
    · show _ = 1 / 4 * (p0.y + p1.y + p2.y + p3.y)
      rw [hy]; ring
    · show _ = 1 / 4 * (p0.z + p1.z + p2.z + p3.z)
      rw [hz]; ring

example : (rat5.bind fun m => m.tetCentroid 0) = some (some ⟨1 / 4, 1 / 4, 1 / 4⟩) := by decide +kernel

theorem Spec.SameVertices.at {m m' : Mesh (Pt K) V T} (h : SameVertices m m') {v : VId} {p : Pt K} (hv : At m v p) : At m' v p := by
  obtain ⟨hg, x, hx, rfl⟩ := hv
  have := h.1 v
  rw [hx, Option.map_some, Option.map_eq_some_iff] at this
  obtain ⟨y, hy, e⟩ := this
  simp only [Prod.mk.injEq] at e
  exact ⟨hg, y, hy, e.1⟩

theorem volume_of {m : Mesh (Pt K) V T} (hm : Consistent m) {w : Walker} {a b c d : VId}
    (hw : m.tet4 w = some (a, b, c, d)) {pa pb pc pd : Pt K} (ha : At m a pa) (hb : At m b pb) (hc : At m c pc)
    (hd : At m d pd) : m.tetVolumeX6 w.tet = some (some (orient3d pa pb pc pd)) := by
  obtain ⟨x, h1, h2⟩ := volume_at hm hw (by rw [mem4_ghost]; simp [ha.1, hb.1, hc.1, hd.1])
  rw [C35_solid ha hb hc hd] at h2
  rw [h1, h2]

/-- The 1-to-4 flip of a solid tet: the volumes of the new tets add up to that of the old one. -/
theorem C36_flip14 {m : Mesh (Pt K) V T} (hm : Consistent m) {k : TId} {v a b c d : VId} {nT nE : Nat}
    (hk : m.tet4 (Mesh.walkerFromTetId k) = some (a, b, c, d)) (hv : v ≠ GHOST) (hv' : m.vertices.get v ≠ none)
    (hs : GHOST ∉ [a, b, c, d])
    (hno : ∀ w, m.first w ≠ some v) (hT : m.numTets = some nT) (hE : m.numEdges = some nE)
    (roomT : nT + 3 ≤ idMax) (roomE : nE + 4 ≤ idMax) :
    ∃ m' r0 r1 r2 r3 x x0 x1 x2 x3, m.flip14Unchecked (Mesh.walkerFromTetId k) v = some (m', [r0, r1, r2, r3]) ∧
      m.tetVolumeX6 k = some (some x) ∧ m'.tetVolumeX6 r0.tet = some (some x0) ∧
      m'.tetVolumeX6 r1.tet = some (some x1) ∧ m'.tetVolumeX6 r2.tet = some (some x2) ∧
      m'.tetVolumeX6 r3.tet = some (some x3) ∧ x0 + x1 + x2 + x3 = x := by
  obtain ⟨m', r0, r1, r2, r3, h1, h2, -, -, q0, q1, q2, q3, -⟩ := C18_flip14 hm hk hv' hno hT hE roomT roomE
  have hsv := C23_vertices hm.stored.2.2 (Or.inl h1)
  obtain ⟨pa, pb, pc, pd, ha, hb, hc, hd⟩ := tet_at hm hk hs
  obtain ⟨x, hx⟩ := Option.ne_none_iff_exists'.1 hv'
  have hp : At m v x.position := ⟨hv, x, hx, rfl⟩
  have ha' := hsv.at ha
  have hb' := hsv.at hb
  have hc' := hsv.at hc
  have hd' := hsv.at hd
  have hp' := hsv.at hp
  refine ⟨m', r0, r1, r2, r3, _, _, _, _, _, h1, volume_of hm hk ha hb hc hd, volume_of h2 q0 hd' hc' hb' hp',
    volume_of h2 q1 hc' hd' ha' hp', volume_of h2 q2 hb' ha' hd' hp', volume_of h2 q3 ha' hb' hc' hp', ?_⟩
  simp only [orient3d, Pt.sub, Pt.dot, Pt.cross]
  ring

example : ∃ m, ratV = some m ∧ ∃ m' r0 r1 r2 r3 x x0 x1 x2 x3,
    m.flip14Unchecked (Mesh.walkerFromTetId 0) 4 = some (m', [r0, r1, r2, r3]) ∧
      m.tetVolumeX6 0 = some (some x) ∧ m'.tetVolumeX6 r0.tet = some (some x0) ∧
      m'.tetVolumeX6 r1.tet = some (some x1) ∧ m'.tetVolumeX6 r2.tet = some (some x2) ∧
      m'.tetVolumeX6 r3.tet = some (some x3) ∧ x0 + x1 + x2 + x3 = x := by
  obtain ⟨m, h1, h2, h3⟩ := ratV_ok
  refine ⟨m, h1, C36_flip14 (a := 0) (b := 1) (c := 3) (d := 2) (nT := 5) (nE := 10) h2 ?_ (by decide) ?_ (by decide)
    ?_ ?_ ?_ (by decide) (by decide)⟩
  · exact of_map (f := fun m => m.tet4 (Mesh.walkerFromTetId 0)) (b := some (0, 1, 3, 2)) h1 (by decide +kernel)
  · obtain ⟨-, x, hx, -⟩ := h3 4
    have hx : m.vertices.get 4 = some x := hx
    rw [hx]
    simp
  · exact first_of_check (of_map (f := fun m => noVertex m 4) (b := true) h1 (by decide +kernel))
  · exact of_map (f := fun m => m.numTets) (b := some 5) h1 (by decide +kernel)
  · exact of_map (f := fun m => m.numEdges) (b := some 10) h1 (by decide +kernel)

example : ((ratV.bind fun m => m.flip14Unchecked (Mesh.walkerFromTetId 0) 4).bind fun x =>
    x.2.mapM fun w => x.1.tetVolumeX6 w.tet) = some [some (2 / 5), some (1 / 5), some (1 / 5), some (1 / 5)] := by
  decide +kernel

/-- The 2-to-3 flip of two solid tets keeps the sum of the volumes. -/
theorem C36_flip23 {m : Mesh (Pt K) V T} (hm : Consistent m) {w o : Walker} {a b c d e : VId} {nT nE : Nat}
    (hw : m.tet4 w = some (a, b, c, d)) (ho : m.toAdj w = some o) (hf : m.fourth o = some e)
    (hne : d ≠ e) (hno : ¬ HasEdge m d e) (hs : GHOST ∉ [a, b, c, d]) (he : e ≠ GHOST)
    (hT : m.numTets = some nT) (hE : m.numEdges = some nE) (roomT : nT < idMax) (roomE : nE < idMax) :
    ∃ m' r0 r1 r2 x y x0 x1 x2, m.flip23Unchecked w = some (m', [r0, r1, r2]) ∧
      m.tetVolumeX6 w.tet = some (some x) ∧ m.tetVolumeX6 o.tet = some (some y) ∧
      m'.tetVolumeX6 r0.tet = some (some x0) ∧ m'.tetVolumeX6 r1.tet = some (some x1) ∧
      m'.tetVolumeX6 r2.tet = some (some x2) ∧ x0 + x1 + x2 = x + y := by
  obtain ⟨m', r0, r1, r2, h1, h2, -, -, q0, q1, q2, -⟩ := C19_flip23 hm hw ho hf hne hno hT hE roomT roomE
  have hsv := C23_vertices hm.stored.2.2 (v := 0) (Or.inr (Or.inl h1))
  obtain ⟨pa, pb, pc, pd, ha, hb, hc, hd⟩ := tet_at hm hw hs
  obtain ⟨w', g1, g2⟩ := hm.toT.adj_tri (tet4_parts hw).2.2.2
  obtain rfl : w' = o := Option.some.inj (g1.symm.trans ho)
  obtain ⟨e', g3⟩ := tri_tet4 g2
  obtain rfl : e' = e := Option.some.inj ((tet4_parts g3).2.1.symm.trans hf)
  have hs' : GHOST ∉ [b, a, c, e'] := by
    rw [mem4_ghost]
    simp [ha.1, hb.1, hc.1, he]
  obtain ⟨-, -, -, pe, -, -, -, hp⟩ := tet_at hm g3 hs'
  have ha' := hsv.at ha
  have hb' := hsv.at hb
  have hc' := hsv.at hc
  have hd' := hsv.at hd
  have hp' := hsv.at hp
  refine ⟨m', r0, r1, r2, _, _, _, _, _, h1, volume_of hm hw ha hb hc hd, volume_of hm g3 hb ha hc hp,
    volume_of h2 q0 ha' hb' hp' hd', volume_of h2 q1 hc' ha' hp' hd', volume_of h2 q2 hb' hc' hp' hd', ?_⟩
  simp only [orient3d, Pt.sub, Pt.dot, Pt.cross]
  ring

/-- The 3-to-2 flip of three solid tets keeps the sum of the volumes. -/
theorem C36_flip32 {m : Mesh (Pt K) V T} (hm : Consistent m) {w o1 o2 : Walker} {x y c d e : VId} {nT nE : Nat}
    (hw : m.tet4 w = some (x, y, c, d)) (s1 : m.ringStep w = some o1) (s2 : m.ringStep o1 = some o2)
    (s3 : m.ringStep o2 = some w) (hf : m.fourth o1 = some e) (hno : ¬ HasTri m (d, c, e))
    (hs : GHOST ∉ [x, y, c, d]) (he : e ≠ GHOST)
    (hT : m.numTets = some nT) (hE : m.numEdges = some nE) :
    ∃ m' r0 r1 u0 u1 u2 x0 x1, m.flip32Unchecked w = some (m', [r0, r1]) ∧
      m.tetVolumeX6 w.tet = some (some u0) ∧ m.tetVolumeX6 o1.tet = some (some u1) ∧
      m.tetVolumeX6 o2.tet = some (some u2) ∧
      m'.tetVolumeX6 r0.tet = some (some x0) ∧ m'.tetVolumeX6 r1.tet = some (some x1) ∧
      x0 + x1 = u0 + u1 + u2 := by
  obtain ⟨m', r0, r1, h1, h2, -, -, q0, q1, -⟩ := C20_flip32 hm hw s1 s2 s3 hf hno hT hE
  have hsv := C23_vertices hm.stored.2.2 (v := 0) (Or.inr (Or.inr (Or.inl h1)))
  obtain ⟨px, py, pc, pd, hx, hy, hc, hd⟩ := tet_at hm hw hs
  obtain ⟨e', g1⟩ := hm.toT.ring_tet4 hw s1
  obtain rfl : e' = e := Option.some.inj ((tet4_parts g1).2.1.symm.trans hf)
  obtain ⟨c', g2⟩ := hm.toT.ring_tet4 g1 s2
  obtain ⟨d', g3⟩ := hm.toT.ring_tet4 g2 s3
  obtain ⟨-, -, rfl, rfl⟩ : x = x ∧ y = y ∧ c = c' ∧ d = d' := by
    have := hw.symm.trans g3
    simpa using this
  have hs' : GHOST ∉ [x, y, d, e'] := by
    rw [mem4_ghost]
    simp [hx.1, hy.1, hd.1, he]
  obtain ⟨-, -, -, pe, -, -, -, hp⟩ := tet_at hm g1 hs'
  have hx' := hsv.at hx
  have hy' := hsv.at hy
  have hc' := hsv.at hc
  have hd' := hsv.at hd
  have hp' := hsv.at hp
  refine ⟨m', r0, r1, _, _, _, _, _, h1, volume_of hm hw hx hy hc hd, volume_of hm g1 hx hy hd hp,
    volume_of hm g2 hx hy hp hc, volume_of h2 q0 hx' hc' hd' hp', volume_of h2 q1 hy' hd' hc' hp', ?_⟩
  simp only [orient3d, Pt.sub, Pt.dot, Pt.cross]
  ring

/-! ## C37 -/

theorem coplanar_orient {a b c d : Pt K} (h : Coplanar [a, b, c, d]) : orient3d a b c d = 0 := by
  obtain ⟨n, hn, k, hk⟩ := h
  simp only [List.mem_cons, List.not_mem_nil, or_false, forall_eq_or_imp, forall_eq] at hk
  obtain ⟨ka, kb, kc, kd⟩ := hk
  have h1 := orient_split a b c d (a.add n)
  have h2 := congrArg n.dot (orient_cramer a b c d (a.add n))
  have e : n.dot (Pt.smul (orient3d a b c d) (a.add n)) = orient3d a b c d * (n.dot a + n.norm2) := by
    simp only [Pt.dot, Pt.smul, Pt.add, Pt.norm2]; ring
  have e' : ∀ w x y z : K, n.dot (comb [(w, a), (x, b), (y, c), (z, d)]) =
      w * n.dot a + x * n.dot b + y * n.dot c + z * n.dot d := fun w x y z => by
    simp only [Pt.dot, Pt.smul, Pt.add, comb]; ring
  rw [e, e', ka, kb, kc, kd, ← add_mul, ← add_mul, ← add_mul, h1, mul_add] at h2
  have h3 : orient3d a b c d * n.norm2 = 0 := by linarith
  exact (mul_eq_zero.1 h3).resolve_right (norm2_pos hn).ne'

/-- If the five points are not in one plane, the test is true exactly if the open triangle and the
open edge have a common point. -/
theorem C37_exact {m : Mesh (Pt K) V T} {v0 v1 v2 v3 v4 : VId} {p0 p1 p2 p3 p4 : Pt K}
    (h0 : At m v0 p0) (h1 : At m v1 p1) (h2 : At m v2 p2) (h3 : At m v3 p3) (h4 : At m v4 p4)
    (hn : ¬ Coplanar [p0, p1, p2, p3, p4]) :
    ∃ r, m.triIntersectsEdge v0 v1 v2 v3 v4 = some r ∧ (r = true ↔ ∃ x, InTri p0 p1 p2 x ∧ InSeg p3 p4 x) := by
  have o := fun {a b c d pa pb pc pd} => C35_solid (m := m) (a := a) (b := b) (c := c) (d := d) (pa := pa)
    (pb := pb) (pc := pc) (pd := pd)
  have e : m.triIntersectsEdge v0 v1 v2 v3 v4 = some (Mesh.sameSign [orient3d p1 p2 p3 p4, orient3d p2 p0 p3 p4,
      orient3d p0 p1 p3 p4, orient3d p0 p1 p2 p4, orient3d p2 p1 p0 p3]) := by
    simp only [Mesh.triIntersectsEdge, Mesh.triEdgeBary, o h1 h2 h3 h4, o h2 h0 h3 h4, o h0 h1 h3 h4,
      o h0 h1 h2 h4, o h2 h1 h0 h3, Option.bind_eq_bind, Option.bind_some, Option.pure_def, Option.map_some]
  refine ⟨_, e, ?_⟩
  simp only [Mesh.sameSign, List.all_cons, List.all_nil, Bool.and_true, Bool.or_eq_true, Bool.and_eq_true,
    decide_eq_true_eq]
  constructor
  · intro h
    exact crossing_of h
  · rintro ⟨x, hx, hy⟩
    exact crossing_scale hn hx hy

-- the triangle opposite to the origin is crossed by the edge from the inner to the outer vertex
example : ∃ m, ratV = some m ∧ m.triIntersectsEdge 1 2 3 4 5 = some true ∧ m.triIntersectsEdge 0 2 3 4 5 = some false ∧
    ∃ r, m.triIntersectsEdge 1 2 3 4 5 = some r ∧
      (r = true ↔ ∃ x, InTri (ratPos 1) (ratPos 2) (ratPos 3) x ∧ InSeg (ratPos 4) (ratPos 5) x) := by
  obtain ⟨m, h1, -, h3⟩ := ratV_ok
  refine ⟨m, h1, of_map (f := fun m => m.triIntersectsEdge 1 2 3 4 5) h1 (by decide +kernel),
    of_map (f := fun m => m.triIntersectsEdge 0 2 3 4 5) h1 (by decide +kernel),
    C37_exact (h3 1) (h3 2) (h3 3) (h3 4) (h3 5) ?_⟩
  rintro ⟨n, hn, k, hk⟩
  have : orient3d (ratPos 1) (ratPos 2) (ratPos 3) (ratPos 4) = 0 :=
    coplanar_orient ⟨n, hn, k, fun p hp => hk p (by
      simp only [List.mem_cons, List.not_mem_nil, or_false] at hp ⊢
      tauto)⟩
  exact absurd this (by decide +kernel)

/-- Five points in one plane: the test is false. -/
theorem C37_coplanar {m : Mesh (Pt K) V T} {v0 v1 v2 v3 v4 : VId} {p0 p1 p2 p3 p4 : Pt K}
    (h0 : At m v0 p0) (h1 : At m v1 p1) (h2 : At m v2 p2) (h3 : At m v3 p3) (h4 : At m v4 p4)
    (hn : Coplanar [p0, p1, p2, p3, p4]) : m.triIntersectsEdge v0 v1 v2 v3 v4 = some false := by
  have o := fun {a b c d pa pb pc pd} => C35_solid (m := m) (a := a) (b := b) (c := c) (d := d) (pa := pa)
    (pb := pb) (pc := pc) (pd := pd)
  have hz : orient3d p1 p2 p3 p4 = 0 := by
    obtain ⟨n, hn, k, hk⟩ := hn
    exact coplanar_orient ⟨n, hn, k, fun p hp => hk p (List.mem_cons_of_mem _ hp)⟩
  simp [Mesh.triIntersectsEdge, Mesh.triEdgeBary, o h1 h2 h3 h4, o h2 h0 h3 h4, o h0 h1 h3 h4,
    o h0 h1 h2 h4, o h2 h1 h0 h3, Mesh.sameSign, hz]

theorem sameSign_neg (l : List K) : Mesh.sameSign (l.map (-·)) = Mesh.sameSign l := by
  simp only [Mesh.sameSign, List.all_map, Function.comp_def, Left.neg_pos_iff, Left.neg_neg_iff]
  exact Bool.or_comm _ _

theorem sameSign_perm {l l' : List K} (h : ∀ x, x ∈ l ↔ x ∈ l') : Mesh.sameSign l = Mesh.sameSign l' := by
  have : ∀ p : K → Bool, l.all p = l'.all p := fun p => by
    rw [Bool.eq_iff_iff, List.all_eq_true, List.all_eq_true]
    simp only [h]
  simp only [Mesh.sameSign, this]

/-- The result does not depend on the order of the three vertices nor on that of the two, also with
the ghost vertex among them. -/
theorem C37_order (m : Mesh (Pt K) V T) (v0 v1 v2 v3 v4 : VId) :
    m.triIntersectsEdge v1 v2 v0 v3 v4 = m.triIntersectsEdge v0 v1 v2 v3 v4 ∧
    m.triIntersectsEdge v1 v0 v2 v3 v4 = m.triIntersectsEdge v0 v1 v2 v3 v4 ∧
    m.triIntersectsEdge v0 v1 v2 v4 v3 = m.triIntersectsEdge v0 v1 v2 v3 v4 := by
  have a := orient_alt m
  have r : ∀ x y z t, m.orient y z x t = m.orient x y z t := fun x y z t => by
    rw [(a y x z t).2.1, (a x y z t).1, map_neg_neg]
  simp only [Mesh.triIntersectsEdge, Mesh.triEdgeBary]
  refine ⟨?_, ?_, ?_⟩
  · rw [r v0 v1 v2 v4, ← r v2 v1 v0 v3, ← r v1 v0 v2 v3]
    cases m.orient v1 v2 v3 v4 <;> cases m.orient v2 v0 v3 v4 <;> cases m.orient v0 v1 v3 v4 <;>
      cases m.orient v0 v1 v2 v4 <;> cases m.orient v0 v2 v1 v3 <;> simp
    apply sameSign_perm
    intro x
    simp only [List.mem_cons, List.not_mem_nil, or_false]
    tauto
  · rw [(a v2 v0 v3 v4).1, (a v1 v2 v3 v4).1, (a v0 v1 v3 v4).1, (a v0 v1 v2 v4).1, (a v2 v1 v0 v3).2.1]
    cases m.orient v1 v2 v3 v4 <;> cases m.orient v2 v0 v3 v4 <;> cases m.orient v0 v1 v3 v4 <;>
      cases m.orient v0 v1 v2 v4 <;> cases m.orient v2 v1 v0 v3 <;> simp
    rename_i x0 x1 x2 x3 x4
    rw [← sameSign_neg]
    apply sameSign_perm
    intro x
    simp only [List.map_cons, List.map_nil, neg_neg, List.mem_cons, List.not_mem_nil, or_false]
    tauto
  · rw [(a v1 v2 v3 v4).2.2, (a v2 v0 v3 v4).2.2, (a v0 v1 v3 v4).2.2, ← r v0 v1 v2 v3, (a v2 v1 v0 v3).1,
      (a v1 v2 v0 v4).1, r v0 v1 v2 v4]
    cases m.orient v1 v2 v3 v4 <;> cases m.orient v2 v0 v3 v4 <;> cases m.orient v0 v1 v3 v4 <;>
      cases m.orient v0 v1 v2 v4 <;> cases m.orient v2 v1 v0 v3 <;> simp
    rename_i x0 x1 x2 x3 x4
    rw [← sameSign_neg]
    apply sameSign_perm
    intro x
    simp only [List.map_cons, List.map_nil, neg_neg, List.mem_cons, List.not_mem_nil, or_false]
    tauto

/-! ## C38 -/

theorem parallel_iff (u v : Pt K) : Parallel u v ↔ u.cross v = ⟨0, 0, 0⟩ := by
  constructor
  · rintro ⟨k, l, hkl, h⟩
    simp only [Pt.smul, Pt.mk.injEq] at h
    obtain ⟨hx, hy, hz⟩ := h
    have h1 : k * (u.y * v.z - u.z * v.y) = 0 := by linear_combination v.z * hy - v.y * hz
    have h2 : k * (u.z * v.x - u.x * v.z) = 0 := by linear_combination v.x * hz - v.z * hx
    have h3 : k * (u.x * v.y - u.y * v.x) = 0 := by linear_combination v.y * hx - v.x * hy
    have h4 : l * (u.y * v.z - u.z * v.y) = 0 := by linear_combination u.z * hy - u.y * hz
    have h5 : l * (u.z * v.x - u.x * v.z) = 0 := by linear_combination u.x * hz - u.z * hx
    have h6 : l * (u.x * v.y - u.y * v.x) = 0 := by linear_combination u.y * hx - u.x * hy
    simp only [Pt.cross, Pt.mk.injEq]
    rcases hkl with hk | hl
    · exact ⟨(mul_eq_zero.1 h1).resolve_left hk, (mul_eq_zero.1 h2).resolve_left hk, (mul_eq_zero.1 h3).resolve_left hk⟩
    · exact ⟨(mul_eq_zero.1 h4).resolve_left hl, (mul_eq_zero.1 h5).resolve_left hl, (mul_eq_zero.1 h6).resolve_left hl⟩
  · intro h
    simp only [Pt.cross, Pt.mk.injEq] at h
    obtain ⟨h1, h2, h3⟩ := h
    by_cases hu : u = ⟨0, 0, 0⟩
    · exact ⟨1, 0, Or.inl one_ne_zero, by simp [hu, Pt.smul]⟩
    rcases pt_ne.1 hu with hx | hx | hx
    · refine ⟨v.x, u.x, Or.inr hx, ?_⟩
      simp only [Pt.smul, Pt.mk.injEq]
      exact ⟨by ring, by linear_combination -h3, by linear_combination h2⟩
    · refine ⟨v.y, u.y, Or.inr hx, ?_⟩
      simp only [Pt.smul, Pt.mk.injEq]
      exact ⟨by linear_combination h3, by ring, by linear_combination -h1⟩
    · refine ⟨v.z, u.z, Or.inr hx, ?_⟩
      simp only [Pt.smul, Pt.mk.injEq]
      exact ⟨by linear_combination -h2, by linear_combination h1, by ring⟩

/-- The test is true exactly if the edges are not parallel and have a common interior point. -/
theorem C38_exact {m : Mesh (Pt K) V T} {v0 v1 v2 v3 : VId} {p0 p1 p2 p3 : Pt K}
    (h0 : At m v0 p0) (h1 : At m v1 p1) (h2 : At m v2 p2) (h3 : At m v3 p3) :
    ∃ r, m.edgeIntersectsEdge v0 v1 v2 v3 = some r ∧
      (r = true ↔ ¬ Parallel (p1.sub p0) (p3.sub p2) ∧ ∃ x, InSeg p0 p1 x ∧ InSeg p2 p3 x) := by
  have hg : ∀ {a b c : VId}, a ≠ GHOST → b ≠ GHOST → c ≠ GHOST → (Mesh.ghostSign [a, b, c] : K) = 1 := by
    intro a b c ha hb hc
    rw [Mesh.ghostSign, if_neg]
    simp only [List.mem_cons, List.not_mem_nil, or_false, not_or]
    exact ⟨ha.symm, hb.symm, hc.symm⟩
  rw [parallel_iff]
  by_cases ho : orient3d p0 p1 p2 p3 = 0
  swap
  · refine ⟨false, by simp [Mesh.edgeIntersectsEdge, C35_solid h0 h1 h2 h3, ho], by simp, ?_⟩
    rintro ⟨-, x, ⟨k0, k1, -, -, hk, e0⟩, ⟨k2, k3, -, -, hl, e1⟩⟩
    exact absurd (eb_of_crossing hk hl e0 e1).1 ho
  by_cases hc : crossEdges p0 p1 p2 p3 = ⟨0, 0, 0⟩
  · refine ⟨false, ?_, by simp, ?_⟩
    · simp [Mesh.edgeIntersectsEdge, C35_solid h0 h1 h2 h3, ho, Mesh.edgeEdgeBary, h0.idxOri, h1.idxOri,
        h2.idxOri, h3.idxOri, hc, Mesh.sameSign]
    · rintro ⟨h, -⟩
      exact absurd hc h
  · refine ⟨Mesh.sameSign [eb0 p0 p1 p2 p3, eb1 p0 p1 p2 p3, eb2 p0 p1 p2 p3, eb3 p0 p1 p2 p3], ?_, ?_⟩
    · simp [Mesh.edgeIntersectsEdge, C35_solid h0 h1 h2 h3, ho, Mesh.edgeEdgeBary, h0.idxOri, h1.idxOri,
        h2.idxOri, h3.idxOri, hc, hg h1.1 h2.1 h3.1, hg h2.1 h0.1 h3.1, hg h0.1 h1.1 h3.1, hg h0.1 h1.1 h2.1, h2.1,
        eb0, eb1, eb2, eb3]
    · rw [segments_iff hc]
      simp only [Mesh.sameSign, List.all_cons, List.all_nil, Bool.and_true, Bool.or_eq_true, Bool.and_eq_true,
        decide_eq_true_eq, ho, true_and]
      exact ⟨fun h => ⟨hc, h⟩, fun h => h.2⟩

-- an edge from the origin through the inner vertex crosses nothing; a diagonal cross is found
example : ∃ m, ratV = some m ∧ m.edgeIntersectsEdge 0 5 1 2 = some false ∧
    ∃ r, m.edgeIntersectsEdge 0 5 1 2 = some r ∧ (r = true ↔ ¬ Parallel ((ratPos 5).sub (ratPos 0)) ((ratPos 2).sub (ratPos 1)) ∧
      ∃ x, InSeg (ratPos 0) (ratPos 5) x ∧ InSeg (ratPos 1) (ratPos 2) x) := by
  obtain ⟨m, h1, -, h3⟩ := ratV_ok
  exact ⟨m, h1, of_map (f := fun m => m.edgeIntersectsEdge 0 5 1 2) h1 (by decide +kernel),
    C38_exact (h3 0) (h3 5) (h3 1) (h3 2)⟩

example : ((Mesh.new (fun _ _ _ _ => true) Pt.centroid4 (⟨0, 0, 0⟩ : Pt ℚ) (⟨0, 0, 0⟩, 0) (⟨2, 2, 0⟩, 1) (⟨2, 0, 0⟩, 2)
    (⟨0, 1, 0⟩, 3) ()).bind fun m => m.edgeIntersectsEdge 0 1 2 3) = some true := by decide +kernel

/-- Reversing an edge or exchanging the edges does not matter. -/
theorem C38_order {m : Mesh (Pt K) V T} {v0 v1 v2 v3 : VId} {p0 p1 p2 p3 : Pt K}
    (h0 : At m v0 p0) (h1 : At m v1 p1) (h2 : At m v2 p2) (h3 : At m v3 p3) :
    m.edgeIntersectsEdge v1 v0 v2 v3 = m.edgeIntersectsEdge v0 v1 v2 v3 ∧
    m.edgeIntersectsEdge v0 v1 v3 v2 = m.edgeIntersectsEdge v0 v1 v2 v3 ∧
    m.edgeIntersectsEdge v2 v3 v0 v1 = m.edgeIntersectsEdge v0 v1 v2 v3 := by
  have key : ∀ {a b c d a' b' c' d' : VId} {pa pb pc pd pa' pb' pc' pd' : Pt K}, At m a pa → At m b pb → At m c pc →
      At m d pd → At m a' pa' → At m b' pb' → At m c' pc' → At m d' pd' →
      ((¬ Parallel (pb.sub pa) (pd.sub pc) ∧ ∃ x, InSeg pa pb x ∧ InSeg pc pd x) ↔
        (¬ Parallel (pb'.sub pa') (pd'.sub pc') ∧ ∃ x, InSeg pa' pb' x ∧ InSeg pc' pd' x)) →
      m.edgeIntersectsEdge a b c d = m.edgeIntersectsEdge a' b' c' d' := by
    intro a b c d a' b' c' d' pa pb pc pd pa' pb' pc' pd' ha hb hc hd ha' hb' hc' hd' h
    obtain ⟨r, g1, g2⟩ := C38_exact ha hb hc hd
    obtain ⟨r', g3, g4⟩ := C38_exact ha' hb' hc' hd'
    rw [g1, g3, Bool.eq_iff_iff.2 (g2.trans (h.trans g4.symm))]
  have sw : ∀ {p q x : Pt K}, InSeg p q x ↔ InSeg q p x := by
    have : ∀ {p q x : Pt K}, InSeg p q x → InSeg q p x := by
      rintro p q x ⟨k, l, hk, hl, hs, h⟩
      refine ⟨l, k, hl, hk, by rw [add_comm, hs], ?_⟩
      rw [← h]
      simp only [comb, Pt.smul, Pt.add, Pt.mk.injEq]
      exact ⟨by ring, by ring, by ring⟩
    intro p q x
    exact ⟨this, this⟩
  simp only [parallel_iff] at key
  have z : ∀ {u v : Pt K}, (u.x = -v.x ∧ u.y = -v.y ∧ u.z = -v.z) → (u = ⟨0, 0, 0⟩ ↔ v = ⟨0, 0, 0⟩) := by
    intro u v ⟨hx, hy, hz⟩
    rw [Pt.ext_iff, Pt.ext_iff, hx, hy, hz]
    simp
  refine ⟨key h1 h0 h2 h3 h0 h1 h2 h3 ?_, key h0 h1 h3 h2 h0 h1 h2 h3 ?_, key h2 h3 h0 h1 h0 h1 h2 h3 ?_⟩
  · rw [z (u := (p0.sub p1).cross (p3.sub p2)) (v := (p1.sub p0).cross (p3.sub p2))
      ⟨by simp only [Pt.cross, Pt.sub]; ring, by simp only [Pt.cross, Pt.sub]; ring, by simp only [Pt.cross, Pt.sub]; ring⟩]
    simp only [sw (p := p1) (q := p0)]
  · rw [z (u := (p1.sub p0).cross (p2.sub p3)) (v := (p1.sub p0).cross (p3.sub p2))
      ⟨by simp only [Pt.cross, Pt.sub]; ring, by simp only [Pt.cross, Pt.sub]; ring, by simp only [Pt.cross, Pt.sub]; ring⟩]
    simp only [sw (p := p3) (q := p2)]
  · rw [z (u := (p3.sub p2).cross (p1.sub p0)) (v := (p1.sub p0).cross (p3.sub p2))
      ⟨by simp only [Pt.cross, Pt.sub]; ring, by simp only [Pt.cross, Pt.sub]; ring, by simp only [Pt.cross, Pt.sub]; ring⟩]
    simp only [and_comm]

/-- Edges that share an end, or are not in a plane, do not intersect. -/
theorem C38_never {m : Mesh (Pt K) V T} {v0 v1 v2 v3 : VId} {p0 p1 p2 p3 : Pt K}
    (h0 : At m v0 p0) (h1 : At m v1 p1) (h2 : At m v2 p2) (h3 : At m v3 p3)
    (h : p0 = p2 ∨ p0 = p3 ∨ p1 = p2 ∨ p1 = p3 ∨ ¬ Coplanar [p0, p1, p2, p3]) :
    m.edgeIntersectsEdge v0 v1 v2 v3 = some false := by
  obtain ⟨r, g1, g2⟩ := C38_exact h0 h1 h2 h3
  rw [g1, Option.some.injEq, ← Bool.not_eq_true, g2, parallel_iff]
  rintro ⟨hc, x, ⟨k0, k1, pk0, pk1, hk, e0⟩, ⟨k2, k3, pk2, pk3, hl, e1⟩⟩
  obtain ⟨ho, b0, b1, b2, b3⟩ := eb_of_crossing hk hl e0 e1
  have hn := norm2_pos (n := crossEdges p0 p1 p2 p3) hc
  have n0 := (mul_pos pk0 hn).ne'
  have n1 := (mul_pos pk1 hn).ne'
  rcases h with rfl | rfl | rfl | rfl | h
  · refine n1 (neg_eq_zero.1 (b1.symm.trans ?_))
    simp only [eb1, orient3d, Pt.sub, Pt.dot, Pt.cross]; ring
  · refine n1 (neg_eq_zero.1 (b1.symm.trans ?_))
    simp only [eb1, orient3d, Pt.sub, Pt.dot, Pt.cross]; ring
  · refine n0 (neg_eq_zero.1 (b0.symm.trans ?_))
    simp only [eb0, orient3d, Pt.sub, Pt.dot, Pt.cross]; ring
  · refine n0 (neg_eq_zero.1 (b0.symm.trans ?_))
    simp only [eb0, orient3d, Pt.sub, Pt.dot, Pt.cross]; ring
  · refine h ⟨crossEdges p0 p1 p2 p3, hc, (crossEdges p0 p1 p2 p3).dot p0, ?_⟩
    simp only [List.mem_cons, List.not_mem_nil, or_false, forall_eq_or_imp, forall_eq]
    simp only [orient3d, Pt.sub, Pt.dot, Pt.cross, crossEdges] at ho ⊢
    refine ⟨trivial, by ring, by linear_combination ho, by linear_combination ho⟩

/-! ## C39 -/

theorem nodup4 {α : Type} (v : Fin 4 → α) : [v 0, v 1, v 2, v 3].Nodup ↔ Function.Injective v := by
  rw [← List.nodup_ofFn]
  simp [List.ofFn_succ]

theorem nodup_comp {α : Type} (v : Fin 4 → α) (σ : Equiv.Perm (Fin 4)) (h : [v 0, v 1, v 2, v 3].Nodup) :
    [(v ∘ σ) 0, (v ∘ σ) 1, (v ∘ σ) 2, (v ∘ σ) 3].Nodup := by
  rw [nodup4] at h ⊢
  exact h.comp σ.injective

/-- The same result for all walkers of a tet, solid or ghost. -/
theorem C39_walkers {m : Mesh (Pt K) V T} (hm : Consistent m) {w w' : Walker} (hww : w.tet = w'.tet)
    {a b c d a' b' c' d' e : VId} (hw : m.tet4 w = some (a, b, c, d)) (hw' : m.tet4 w' = some (a', b', c', d')) :
    m.inSphere a' b' c' d' e = m.inSphere a b c d e := by
  have hd := hm.distinct _ _ _ _ _ hw
  refine alt_even (fun x : Option K => x.map (-·)) map_neg_neg (fun a b c d => m.inSphere a b c d e)
    (fun v => [v 0, v 1, v 2, v 3].Nodup) ?_ (fun a b c d h => (inSphere_alt m a b c d e h).1)
    (fun a b c d h => (inSphere_alt m a b c d e h).2.1) (fun a b c d h => (inSphere_alt m a b c d e h).2.2)
    (tet_same hww hw hw') hd
  exact nodup_comp

-- the inner vertex is in the sphere of tet 0, the outer one is not; it is in the sphere of one ghost tet
example : (ratV.bind fun m => [m.inSphere 0 1 3 2 4, m.inSphere 0 1 3 2 5, m.inSphere 3 0 1 2 4, m.inSphere 1 3 2 GHOST 5,
    m.inSphere 2 GHOST 1 3 5, m.inSphere 2 0 1 GHOST 5].mapM id) =
    some [12 / 25, -6, 12 / 25, 5, 5, -2] := by decide +kernel

/-- Ghost tets: the orientation of the solid triangle with the query vertex. -/
theorem C39_ghost {m : Mesh (Pt K) V T} {a b c e : VId} {pa pb pc pe : Pt K} (ha : At m a pa) (hb : At m b pb)
    (hc : At m c pc) (he : At m e pe) : m.inSphere a b c GHOST e = m.orient a b c e := by
  rw [C35_solid ha hb hc he]
  simp [Mesh.inSphere, ha.idxOri, hb.idxOri, hc.idxOri, idxOri_ghost, he.idx, ha.1, hb.1, hc.1]

/-- Solid tets of positive orientation have one circumscribed sphere, and the sign of the result says
on which side of it the query vertex is. -/
theorem C39_solid {m : Mesh (Pt K) V T} {a b c d e : VId} {pa pb pc pd pe : Pt K} (ha : At m a pa) (hb : At m b pb)
    (hc : At m c pc) (hd : At m d pd) (he : At m e pe) (hp : 0 < orient3d pa pb pc pd) :
    ∃ r, m.inSphere a b c d e = some r ∧ (∃ o r2, OnSphere o r2 [pa, pb, pc, pd]) ∧
      ∀ o r2, OnSphere o r2 [pa, pb, pc, pd] → (0 < r ↔ (pe.sub o).norm2 < r2) ∧ (r = 0 ↔ (pe.sub o).norm2 = r2) := by
  refine ⟨inSphere pa pb pc pd pe, ?_, exists_sphere hp.ne', ?_⟩
  · simp [Mesh.inSphere, ha.idxOri, hb.idxOri, hc.idxOri, hd.idxOri, he.idx, ha.1, hb.1, hc.1, hd.1]
  · intro o r2 h
    rw [inSphere_eq h]
    refine ⟨?_, ?_⟩
    · rw [mul_pos_iff_of_pos_left hp, sub_pos]
    · rw [mul_eq_zero, or_iff_right hp.ne', sub_eq_zero, eq_comm]

/-! ## C40 -/

theorem sim_same {pos : VId → Option (Pt K)} {sim : VId → VId → VId → VId → Bool} (hsim : IsSim pos sim)
    {a b c d a' b' c' d' : VId} (hn : [a, b, c, d].Nodup) (h : SameTet (a, b, c, d) (a', b', c', d')) :
    sim a' b' c' d' = sim a b c d :=
  alt_even (fun x : Bool => !x) (by simp) sim (fun v => [v 0, v 1, v 2, v 3].Nodup) nodup_comp
    (fun a b c d h => hsim.swap01 a b c d h) (fun a b c d h => hsim.swap12 a b c d h)
    (fun a b c d h => hsim.swap23 a b c d h) h hn

-- ties can always be broken consistently, by the order of the ids
theorem sim_exists (pos : VId → Option (Pt K)) : ∃ sim, IsSim pos sim := by
  let parity : VId → VId → VId → VId → Bool := fun a b c d =>
    xor (decide (a < b)) (xor (decide (a < c)) (xor (decide (a < d)) (xor (decide (b < c))
      (xor (decide (b < d)) (decide (c < d))))))
  let o : VId → VId → VId → VId → K := fun a b c d =>
    match pos a, pos b, pos c, pos d with
    | some pa, some pb, some pc, some pd => orient3d pa pb pc pd
    | _, _, _, _ => 0
  let sim : VId → VId → VId → VId → Bool := fun a b c d =>
    if o a b c d = 0 then parity a b c d else decide (0 < o a b c d)
  have lt_flip : ∀ {x y : VId}, x ≠ y → decide (y < x) = !decide (x < y) := by
    intro x y h
    rw [Bool.eq_iff_iff]
    simp only [decide_eq_true_eq, Bool.not_eq_true', decide_eq_false_iff_not]
    omega
  have o01 : ∀ a b c d, o b a c d = -o a b c d := by
    intro a b c d
    simp only [o]
    cases pos a <;> cases pos b <;> cases pos c <;> cases pos d <;> simp
    exact orient_swap01 _ _ _ _
  have o12 : ∀ a b c d, o a c b d = -o a b c d := by
    intro a b c d
    simp only [o]
    cases pos a <;> cases pos b <;> cases pos c <;> cases pos d <;> simp
    exact orient_swap12 _ _ _ _
  have o23 : ∀ a b c d, o a b d c = -o a b c d := by
    intro a b c d
    simp only [o]
    cases pos a <;> cases pos b <;> cases pos c <;> cases pos d <;> simp
    exact orient_swap23 _ _ _ _
  have flip : ∀ {x : K} {p q : Bool}, q = !p → (if -x = 0 then q else decide (0 < -x)) =
      !(if x = 0 then p else decide (0 < x)) := by
    intro x p q h
    by_cases hx : x = 0
    · simp [hx, h]
    · have : decide (0 < -x) = !decide (0 < x) := by
        rw [Bool.eq_iff_iff]
        simp only [decide_eq_true_eq, Bool.not_eq_true', decide_eq_false_iff_not, Left.neg_pos_iff, not_lt]
        exact ⟨le_of_lt, fun h => lt_of_le_of_ne h hx⟩
      rw [if_neg (neg_ne_zero.2 hx), if_neg hx, this]
  refine ⟨sim, ?_, ?_, ?_, ?_⟩
  · intro a b c d pa pb pc pd ha hb hc hd h
    have : o a b c d = orient3d pa pb pc pd := by simp [o, ha, hb, hc, hd]
    simp only [sim, this, if_neg h]
  · intro a b c d h
    simp only [sim, o01 a b c d]
    apply flip
    simp only [List.nodup_cons, List.mem_cons, List.not_mem_nil, or_false, not_or] at h
    simp only [parity, lt_flip h.1.1]
    generalize decide (a < b) = x1
    generalize decide (a < c) = x2
    generalize decide (a < d) = x3
    generalize decide (b < c) = x4
    generalize decide (b < d) = x5
    generalize decide (c < d) = x6
    revert x1 x2 x3 x4 x5 x6
    decide
  · intro a b c d h
    simp only [sim, o12 a b c d]
    apply flip
    simp only [List.nodup_cons, List.mem_cons, List.not_mem_nil, or_false, not_or] at h
    simp only [parity, lt_flip h.2.1.1]
    generalize decide (a < b) = x1
    generalize decide (a < c) = x2
    generalize decide (a < d) = x3
    generalize decide (b < c) = x4
    generalize decide (b < d) = x5
    generalize decide (c < d) = x6
    revert x1 x2 x3 x4 x5 x6
    decide
  · intro a b c d h
    simp only [sim, o23 a b c d]
    apply flip
    simp only [List.nodup_cons, List.mem_cons, List.not_mem_nil, or_false, not_or] at h
    simp only [parity, lt_flip h.2.2.1]
    generalize decide (a < b) = x1
    generalize decide (a < c) = x2
    generalize decide (a < d) = x3
    generalize decide (b < c) = x4
    generalize decide (b < d) = x5
    generalize decide (c < d) = x6
    revert x1 x2 x3 x4 x5 x6
    decide

/-- The same value for all walkers of a tet. -/
theorem C40_walkers {norm : Pt K → K} {sim : VId → VId → VId → VId → Bool} {nan : Bool} {m : Mesh (Pt K) V T}
    (hm : Consistent m) (hsim : IsSim m.idxOri sim) {w w' : Walker} (hww : w.tet = w'.tet)
    {a b c d a' b' c' d' : VId} (hw : m.tet4 w = some (a, b, c, d)) (hw' : m.tet4 w' = some (a', b', c', d')) :
    m.quality norm sim nan a' b' c' d' = m.quality norm sim nan a b c d := by
  have hd := hm.distinct _ _ _ _ _ hw
  have hs := tet_same hww hw hw'
  have hi : Function.Injective (quad (a, b, c, d)) := (nodup4 (quad (a, b, c, d))).1 hd
  have hk := (C08_key_canonical _ _ hi).2 hs
  unfold Mesh.quality
  rw [sim_same hsim hd hs, hk]
  simp only [ghost_same hs]

theorem onLine_swap {a b p : Pt K} : OnLine a b p ↔ OnLine b a p := by
  have : ∀ {a b p : Pt K}, OnLine a b p → OnLine b a p := by
    rintro a b p ⟨k, l, hs, h⟩
    refine ⟨l, k, by rw [add_comm, hs], ?_⟩
    rw [← h]
    simp only [comb, Pt.smul, Pt.add, Pt.mk.injEq]
    exact ⟨by ring, by ring, by ring⟩
  exact ⟨this, this⟩

theorem onPlane_swap {a b c p : Pt K} : (OnPlane a b c p ↔ OnPlane b a c p) ∧ (OnPlane a b c p ↔ OnPlane a c b p) := by
  have h1 : ∀ {a b c p : Pt K}, OnPlane a b c p → OnPlane b a c p := by
    rintro a b c p ⟨k, l, n, hs, h⟩
    refine ⟨l, k, n, by rw [add_comm l, hs], ?_⟩
    rw [← h]
    simp only [comb, Pt.smul, Pt.add, Pt.mk.injEq]
    exact ⟨by ring, by ring, by ring⟩
  have h2 : ∀ {a b c p : Pt K}, OnPlane a b c p → OnPlane a c b p := by
    rintro a b c p ⟨k, l, n, hs, h⟩
    refine ⟨k, n, l, by rw [← hs]; ring, ?_⟩
    rw [← h]
    simp only [comb, Pt.smul, Pt.add, Pt.mk.injEq]
    exact ⟨by ring, by ring, by ring⟩
  exact ⟨⟨h1, h1⟩, ⟨h2, h2⟩⟩

/-- Opposite points, in either order. -/
def Opp (a b c d : Pt K) : Set (Pt K × Pt K) := {x | OnOpposite a b c d x.1 x.2 ∨ OnOpposite a b c d x.2 x.1}

theorem opp01 {a b c d p q : Pt K} (h : OnOpposite a b c d p q) :
    OnOpposite b a c d p q ∨ OnOpposite b a c d q p := by
  rcases h with h | h | h | h | h | h | h
  · exact Or.inl (Or.inr (Or.inl h))
  · exact Or.inl (Or.inl h)
  · exact Or.inl (Or.inr (Or.inr (Or.inl ⟨h.1, onPlane_swap.1.1 h.2⟩)))
  · exact Or.inl (Or.inr (Or.inr (Or.inr (Or.inl ⟨h.1, onPlane_swap.1.1 h.2⟩))))
  · exact Or.inl (Or.inr (Or.inr (Or.inr (Or.inr (Or.inl ⟨onLine_swap.1 h.1, h.2⟩)))))
  · exact Or.inr (Or.inr (Or.inr (Or.inr (Or.inr (Or.inr (Or.inr ⟨h.2, h.1⟩))))))
  · exact Or.inr (Or.inr (Or.inr (Or.inr (Or.inr (Or.inr (Or.inl ⟨h.2, h.1⟩))))))

theorem opp12 {a b c d p q : Pt K} (h : OnOpposite a b c d p q) : OnOpposite a c b d p q := by
  rcases h with h | h | h | h | h | h | h
  · exact Or.inl ⟨h.1, onPlane_swap.1.1 h.2⟩
  · exact Or.inr (Or.inr (Or.inl h))
  · exact Or.inr (Or.inl h)
  · exact Or.inr (Or.inr (Or.inr (Or.inl ⟨h.1, onPlane_swap.2.1 h.2⟩)))
  · exact Or.inr (Or.inr (Or.inr (Or.inr (Or.inr (Or.inl h)))))
  · exact Or.inr (Or.inr (Or.inr (Or.inr (Or.inl h))))
  · exact Or.inr (Or.inr (Or.inr (Or.inr (Or.inr (Or.inr ⟨h.1, onLine_swap.1 h.2⟩)))))

theorem opp23 {a b c d p q : Pt K} (h : OnOpposite a b c d p q) : OnOpposite a b d c p q := by
  rcases h with h | h | h | h | h | h | h
  · exact Or.inl ⟨h.1, onPlane_swap.2.1 h.2⟩
  · exact Or.inr (Or.inl ⟨h.1, onPlane_swap.2.1 h.2⟩)
  · exact Or.inr (Or.inr (Or.inr (Or.inl h)))
  · exact Or.inr (Or.inr (Or.inl h))
  · exact Or.inr (Or.inr (Or.inr (Or.inr (Or.inl ⟨h.1, onLine_swap.1 h.2⟩))))
  · exact Or.inr (Or.inr (Or.inr (Or.inr (Or.inr (Or.inr h)))))
  · exact Or.inr (Or.inr (Or.inr (Or.inr (Or.inr (Or.inl h)))))

theorem opp_same {a b c d a' b' c' d' : Pt K} (h : EvenRearr (quad (a, b, c, d)) (quad (a', b', c', d'))) :
    Opp a' b' c' d' = Opp a b c d := by
  have s01 : ∀ a b c d : Pt K, Opp a b c d ⊆ Opp b a c d := by
    rintro a b c d ⟨p, q⟩ (h | h)
    · exact opp01 h
    · exact (opp01 h).symm
  have s12 : ∀ a b c d : Pt K, Opp a b c d ⊆ Opp a c b d := by
    rintro a b c d ⟨p, q⟩ (h | h)
    · exact Or.inl (opp12 h)
    · exact Or.inr (opp12 h)
  have s23 : ∀ a b c d : Pt K, Opp a b c d ⊆ Opp a b d c := by
    rintro a b c d ⟨p, q⟩ (h | h)
    · exact Or.inl (opp23 h)
    · exact Or.inr (opp23 h)
  exact alt_even id (fun _ => rfl) Opp (fun _ => True) (fun _ _ _ => trivial)
    (fun a b c d _ => (s01 _ _ _ _).antisymm (s01 _ _ _ _)) (fun a b c d _ => (s12 _ _ _ _).antisymm (s12 _ _ _ _))
    (fun a b c d _ => (s23 _ _ _ _).antisymm (s23 _ _ _ _)) h trivial

theorem norm_swap {norm : Pt K → K} (hN : IsNorm norm) (p q : Pt K) : norm (p.sub q) = norm (q.sub p) := by
  have h1 := hN.sq (p.sub q)
  have h2 := hN.sq (q.sub p)
  have : (p.sub q).norm2 = (q.sub p).norm2 := by
    simp only [Pt.norm2, Pt.dot, Pt.sub]; ring
  rw [this, ← h2] at h1
  exact (mul_self_inj (hN.nonneg _) (hN.nonneg _)).1 h1

/-- −1 for flat and inverted tets, otherwise the smallest distance of points on opposite simplexes. -/
theorem C40_value {norm : Pt K → K} (hN : IsNorm norm) {sim : VId → VId → VId → VId → Bool} {nan : Bool}
    {m : Mesh (Pt K) V T} {a b c d : VId} {pa pb pc pd : Pt K} (ha : At m a pa) (hb : At m b pb) (hc : At m c pc)
    (hd : At m d pd) (hn : [a, b, c, d].Nodup) :
    ∃ r : K, m.quality norm sim nan a b c d = some (r : WithTop K) ∧
      (orient3d pa pb pc pd ≤ 0 → r = -1) ∧
      (0 < orient3d pa pb pc pd → 0 < r ∧ (∃ p q, OnOpposite pa pb pc pd p q ∧ norm (p.sub q) = r) ∧
        ∀ p q, OnOpposite pa pb pc pd p q → r ≤ norm (p.sub q)) := by
  have hi : Function.Injective (quad (a, b, c, d)) := (nodup4 (quad (a, b, c, d))).1 hn
  have he := C08_key_is_even_reordering (a, b, c, d)
  obtain ⟨⟨a', b', c', d'⟩, hk⟩ : ∃ q, evenSorted4 (a, b, c, d) = q := ⟨_, rfl⟩
  rw [hk] at he
  have hs : GHOST ∉ [a, b, c, d] := by
    rw [mem4_ghost]
    simp [ha.1, hb.1, hc.1, hd.1]
  obtain ⟨σ, hσ, hj⟩ := he
  have hP : ∀ i, m.idxOri (quad (a, b, c, d) i) = some (quad (pa, pb, pc, pd) i) := by
    intro i
    fin_cases i
    exacts [ha.idxOri, hb.idxOri, hc.idxOri, hd.idxOri]
  have hP' : ∀ i, m.idxOri (quad (a', b', c', d') i) = some (quad (pa, pb, pc, pd) (σ i)) := fun i => by rw [hj, hP]
  have i0 : m.idxOri a' = _ := hP' 0
  have i1 : m.idxOri b' = _ := hP' 1
  have i2 : m.idxOri c' = _ := hP' 2
  have i3 : m.idxOri d' = _ := hP' 3
  generalize e0 : quad (pa, pb, pc, pd) (σ 0) = p0 at i0
  generalize e1 : quad (pa, pb, pc, pd) (σ 1) = p1 at i1
  generalize e2 : quad (pa, pb, pc, pd) (σ 2) = p2 at i2
  generalize e3 : quad (pa, pb, pc, pd) (σ 3) = p3 at i3
  have hr : EvenRearr (quad (pa, pb, pc, pd)) (quad (p0, p1, p2, p3)) := by
    refine ⟨σ, hσ, fun j => ?_⟩
    fin_cases j
    exacts [e0.symm, e1.symm, e2.symm, e3.symm]
  have ho : orient3d p0 p1 p2 p3 = orient3d pa pb pc pd :=
    alt_even (fun x : K => -x) neg_neg orient3d (fun _ => True) (fun _ _ _ => trivial)
      (fun a b c d _ => orient_swap01 a b c d) (fun a b c d _ => orient_swap12 a b c d)
      (fun a b c d _ => orient_swap23 a b c d) hr trivial
  have hop := opp_same hr
  refine ⟨Mesh.qualityPts norm p0 p1 p2 p3, ?_, ?_, ?_⟩
  · rw [Mesh.quality, if_neg hs, hk]
    simp only [i0, i1, i2, i3, Option.bind_eq_bind, Option.bind_some, Option.pure_def]
  · intro h
    rw [Mesh.qualityPts, ho]
    exact if_pos h
  · intro h
    rw [← ho] at h
    obtain ⟨h1, ⟨p, q, h2, h3⟩, h4⟩ := quality_pts hN h
    refine ⟨h1, ?_, ?_⟩
    · have : (p, q) ∈ Opp pa pb pc pd := by rw [← hop]; exact Or.inl h2
      rcases this with h | h
      · exact ⟨p, q, h, h3⟩
      · exact ⟨q, p, h, by rw [norm_swap hN, h3]⟩
    · intro p q hpq
      have : (p, q) ∈ Opp p0 p1 p2 p3 := by rw [hop]; exact Or.inl hpq
      rcases this with h | h
      · exact h4 p q h
      · rw [norm_swap hN]; exact h4 q p h

-- there is a length of vectors
example : IsNorm fun v : Pt ℝ => Real.sqrt v.norm2 :=
  ⟨fun _ => Real.sqrt_nonneg _, fun v => Real.mul_self_sqrt (by
    simp only [Pt.norm2, Pt.dot]
    nlinarith [mul_self_nonneg v.x, mul_self_nonneg v.y, mul_self_nonneg v.z])⟩

-- the two kinds of value, with another function as length so that it can be computed
example : (rat5.bind fun m => m.quality (fun v => |v.x| + |v.y| + |v.z|) (fun _ _ _ _ => true) false 0 1 3 2) =
      some ((1 / 3 : ℚ) : WithTop ℚ) ∧
    (rat5.bind fun m => m.quality (fun v => |v.x| + |v.y| + |v.z|) (fun _ _ _ _ => true) false 0 1 2 3) =
      some ((-1 : ℚ) : WithTop ℚ) := by decide +kernel

/-- Ghost tets: infinite if the centre is on the inner side (or not a number), otherwise −1. -/
theorem C40_ghost {norm : Pt K → K} {sim : VId → VId → VId → VId → Bool} 
    {m : Mesh (Pt K) V T} (hsim : IsSim m.idxOri sim) {a b c : VId} {x : K} (hx : m.orient a b c GHOST = some x) :
    (0 < x → m.quality norm sim false a b c GHOST = some ⊤) ∧
    (x < 0 → m.quality norm sim false a b c GHOST = some ((-1 : K) : WithTop K)) ∧
    m.quality norm sim true a b c GHOST = some ⊤ := by
  have hg : GHOST ∈ [a, b, c, GHOST] := by simp
  simp only [Mesh.orient] at hx
  obtain ⟨pa, ha, hx⟩ := Option.bind_eq_some_iff.1 hx
  obtain ⟨pb, hb, hx⟩ := Option.bind_eq_some_iff.1 hx
  obtain ⟨pc, hc, hx⟩ := Option.bind_eq_some_iff.1 hx
  obtain ⟨pd, hd, hx⟩ := Option.bind_eq_some_iff.1 hx
  simp only [Mesh.ghostSign, hg, if_true, Option.pure_def, Option.some.injEq, neg_one_mul] at hx
  have key := hsim.sign a b c GHOST pa pb pc pd ha hb hc hd
  refine ⟨fun h => ?_, fun h => ?_, ?_⟩
  · have h' : orient3d pa pb pc pd < 0 := by linarith
    rw [Mesh.quality, if_pos hg, key h'.ne]
    simp [h'.le]
  · have h' : 0 < orient3d pa pb pc pd := by linarith
    rw [Mesh.quality, if_pos hg, key h'.ne']
    simp [h']
  · simp [Mesh.quality, hg]

/-! ## C57 -/

theorem C57_symmetric (m : Mesh (Pt K) V T) (a b : VId) : m.vertexDistance2 a b = m.vertexDistance2 b a := by
  simp only [Mesh.vertexDistance2]
  split_ifs <;> try rfl
  cases m.idx a <;> cases m.idx b <;> simp
  rename_i p q
  simp only [Pt.norm2, Pt.dot, Pt.sub]
  ring

theorem C57_self {m : Mesh (Pt K) V T} {a : VId} (ha : a = GHOST ∨ m.vertices.get a ≠ none) :
    m.vertexDistance2 a a = some ((0 : K) : WithTop K) := by
  rcases ha with rfl | ha
  · simp [Mesh.vertexDistance2]
  · by_cases hg : a = GHOST
    · simp [Mesh.vertexDistance2, hg]
    · obtain ⟨x, hx⟩ := Option.ne_none_iff_exists'.1 ha
      have h0 : (x.position.sub x.position).norm2 = 0 := by
        simp only [Pt.norm2, Pt.dot, Pt.sub]; ring
      simp [Mesh.vertexDistance2, hg, Mesh.idx, hx, h0]

theorem C57_infinite {m : Mesh (Pt K) V T} {a b : VId} (ha : a = GHOST ∨ m.vertices.get a ≠ none)
    (hb : b = GHOST ∨ m.vertices.get b ≠ none) :
    m.vertexDistance2 a b = some ⊤ ↔ (a = GHOST ∧ b ≠ GHOST) ∨ (a ≠ GHOST ∧ b = GHOST) := by
  by_cases ga : a = GHOST <;> by_cases gb : b = GHOST
  · simp [Mesh.vertexDistance2, ga, gb]
  · simp [Mesh.vertexDistance2, ga, gb]
  · simp [Mesh.vertexDistance2, ga, gb]
  · obtain ⟨x, hx⟩ := Option.ne_none_iff_exists'.1 (ha.resolve_left ga)
    obtain ⟨y, hy⟩ := Option.ne_none_iff_exists'.1 (hb.resolve_left gb)
    simp [Mesh.vertexDistance2, ga, gb, Mesh.idx, hx, hy]

example : (ratV.bind fun m => m.vertexDistance2 1 5) = some ((9 : ℚ) : WithTop ℚ) ∧
    (ratV.bind fun m => m.vertexDistance2 1 GHOST) = some ⊤ := by decide +kernel

/-- Between solid vertices: zero only at the same position. -/
theorem C57_zero {m : Mesh (Pt K) V T} {a b : VId} {pa pb : Pt K} (ha : At m a pa) (hb : At m b pb) :
    m.vertexDistance2 a b = some ((0 : K) : WithTop K) ↔ pa = pb := by
  rw [Mesh.vertexDistance2, if_neg ha.1, if_neg hb.1, ha.idx, hb.idx]
  simp only [Option.bind_eq_bind, Option.bind_some, Option.pure_def, Option.some.injEq, WithTop.coe_eq_coe]
  constructor
  · intro h
    by_contra hne
    refine (norm2_pos (n := pa.sub pb) ?_).ne' h
    intro h0
    simp only [Pt.sub, Pt.mk.injEq, sub_eq_zero] at h0
    exact hne (Pt.ext h0.1 h0.2.1 h0.2.2)
  · rintro rfl
    simp [Pt.norm2, Pt.dot, Pt.sub]

/-! ## C59 -/

/-- A vertex that is on none of the four planes of a solid, positively oriented tet is reported to
be in the tet exactly if it is strictly inside. -/
theorem C59_exact {m : Mesh (Pt K) V T} {sim : VId → VId → VId → VId → Bool} (hsim : IsSim m.idxOri sim)
    {a b c d e : VId} {pa pb pc pd pe : Pt K} (ha : At m a pa) (hb : At m b pb)
    (hc : At m c pc) (hd : At m d pd) (he : At m e pe) (hp : 0 < orient3d pa pb pc pd)
    (hg : orient3d pa pb pc pe ≠ 0 ∧ orient3d pd pc pb pe ≠ 0 ∧ orient3d pc pd pa pe ≠ 0 ∧ orient3d pb pa pd pe ≠ 0) :
    Mesh.tetIntersectsVertex sim a b c d e = true ↔ InTet pa pb pc pd pe := by
  have hg' : ∀ {x y z : VId}, x ≠ GHOST → y ≠ GHOST → z ≠ GHOST → decide (GHOST ∈ [x, y, z, e]) = false := by
    intro x y z hx hy hz
    rw [decide_eq_false_iff_not, mem4_ghost]
    simp [hx, hy, hz, he.1]
  have o := fun {x y z px py pz} (hx : At m x px) (hy : At m y py) (hz : At m z pz) =>
    hsim.sign x y z e px py pz pe hx.idxOri hy.idxOri hz.idxOri he.idxOri
  rw [inTet_iff hp]
  simp only [Mesh.tetIntersectsVertex, Mesh.orientSim, hg' ha.1 hb.1 hc.1, hg' hd.1 hc.1 hb.1, hg' hc.1 hd.1 ha.1,
    hg' hb.1 ha.1 hd.1, Bool.false_bne, o ha hb hc hg.1, o hd hc hb hg.2.1, o hc hd ha hg.2.2.1, o hb ha hd hg.2.2.2,
    Bool.and_eq_true, decide_eq_true_eq]
  have e1 : orient3d pd pc pb pe = orient3d pe pb pc pd := by
    simp only [orient3d, Pt.sub, Pt.dot, Pt.cross]; ring
  have e2 : orient3d pc pd pa pe = orient3d pa pe pc pd := by
    simp only [orient3d, Pt.sub, Pt.dot, Pt.cross]; ring
  have e3 : orient3d pb pa pd pe = orient3d pa pb pe pd := by
    simp only [orient3d, Pt.sub, Pt.dot, Pt.cross]; ring
  rw [e1, e2, e3]
  tauto

/-- The sign of the orientation is a good test for points in general position. -/
def ratSim (a b c d : VId) : Bool :=
  match ratV.bind fun m => m.orient a b c d with
  | some x => decide (0 < x)
  | none => false

example : Mesh.tetIntersectsVertex ratSim 0 1 3 2 4 = true ∧ Mesh.tetIntersectsVertex ratSim 0 1 3 2 5 = false := by
  decide +kernel

theorem rotate_sim {pos : VId → Option (Pt K)} {sim : VId → VId → VId → VId → Bool} (hsim : IsSim pos sim)
    {x y z e : VId} (hn : [x, y, z].Nodup) (he : e ∉ [x, y, z]) :
    Mesh.orientSim sim y z x e = Mesh.orientSim sim x y z e := by
  have hn4 : [x, y, z, e].Nodup := by
    simp only [List.nodup_cons, List.mem_cons, List.not_mem_nil, or_false, not_or, not_false_eq_true,
      List.nodup_nil, and_true] at hn he ⊢
    exact ⟨⟨hn.1.1, hn.1.2, Ne.symm he.1⟩, ⟨hn.2, Ne.symm he.2.1⟩, Ne.symm he.2.2⟩
  have hst : SameTet (x, y, z, e) (y, z, x, e) := by
    refine ⟨Equiv.swap 0 2 * Equiv.swap 0 1, by decide, fun j => ?_⟩
    fin_cases j <;> rfl
  rw [Mesh.orientSim, Mesh.orientSim, sim_same hsim hn4 hst, decide_eq_decide.2 (ghost_same hst)]

theorem four_rotations {α : Type} (f : α → α → α → Bool) {a b c d : α} (k : Code)
    (r1 : f b c a = f a b c) (r2 : f c a b = f b c a) (r3 : f c b d = f d c b) (r4 : f b d c = f c b d)
    (r5 : f d a c = f c d a) (r6 : f a c d = f d a c) (r7 : f a d b = f b a d) (r8 : f d b a = f a d b) :
    (f (quad (a, b, c, d) (perms k 0)) (quad (a, b, c, d) (perms k 1)) (quad (a, b, c, d) (perms k 2)) &&
      f (quad (a, b, c, d) (perms k 3)) (quad (a, b, c, d) (perms k 2)) (quad (a, b, c, d) (perms k 1)) &&
      f (quad (a, b, c, d) (perms k 2)) (quad (a, b, c, d) (perms k 3)) (quad (a, b, c, d) (perms k 0)) &&
      f (quad (a, b, c, d) (perms k 1)) (quad (a, b, c, d) (perms k 0)) (quad (a, b, c, d) (perms k 3))) =
    (f a b c && f d c b && f c d a && f b a d) := by
  have key : ∀ x1 x2 x3 x4 : Bool, ∀ y ∈ [(x1, x2, x3, x4), (x2, x1, x4, x3), (x3, x4, x1, x2), (x4, x3, x2, x1),
      (x1, x3, x4, x2), (x1, x4, x2, x3), (x2, x3, x1, x4), (x2, x4, x3, x1), (x3, x1, x2, x4), (x3, x2, x4, x1),
      (x4, x1, x3, x2), (x4, x2, x1, x3)],
      (y.1 && y.2.1 && y.2.2.1 && y.2.2.2) = (x1 && x2 && x3 && x4) := by decide
  have s2 := r2.trans r1
  have s4 := r4.trans r3
  have s6 := r6.trans r5
  have s8 := r8.trans r7
  refine key (f a b c) (f d c b) (f c d a) (f b a d) (_, _, _, _) ?_
  have hk : ∀ k : Code, (perms k 0, perms k 1, perms k 2, perms k 3) ∈ [((3, 2, 1, 0) : Fin 4 × Fin 4 × Fin 4 × Fin 4),
      (2, 3, 0, 1), (1, 0, 3, 2), (0, 1, 2, 3), (2, 1, 3, 0), (3, 0, 2, 1), (0, 3, 1, 2), (1, 2, 0, 3),
      (1, 3, 2, 0), (0, 2, 3, 1), (3, 1, 0, 2), (2, 0, 1, 3)] := by decide
  have q0 : quad (a, b, c, d) 0 = a := rfl
  have q1 : quad (a, b, c, d) 1 = b := rfl
  have q2 : quad (a, b, c, d) 2 = c := rfl
  have q3 : quad (a, b, c, d) 3 = d := rfl
  have hk := hk k
  simp only [List.mem_cons, List.not_mem_nil, or_false, Prod.mk.injEq] at hk
  rcases hk with h | h | h | h | h | h | h | h | h | h | h | h <;> obtain ⟨h0, h1, h2, h3⟩ := h <;>
    simp only [h0, h1, h2, h3, q0, q1, q2, q3, r1, s2, r3, s4, r5, s6, r7, s8, List.mem_cons, true_or, or_true]

/-- The answer is the same for all walkers of the tet. -/
theorem C59_walkers {m : Mesh (Pt K) V T} {sim : VId → VId → VId → VId → Bool} (hm : Consistent m)
    (hsim : IsSim m.idxOri sim) {w w' : Walker} (hww : w.tet = w'.tet)
    {a b c d a' b' c' d' e : VId} (hw : m.tet4 w = some (a, b, c, d)) (hw' : m.tet4 w' = some (a', b', c', d'))
    (he : e ∉ [a, b, c, d]) :
    Mesh.tetIntersectsVertex sim a' b' c' d' e = Mesh.tetIntersectsVertex sim a b c d e := by
  have hd := hm.distinct _ _ _ _ _ hw
  have r : ∀ x ∈ [a, b, c, d], ∀ y ∈ [a, b, c, d], ∀ z ∈ [a, b, c, d], [x, y, z].Nodup →
      Mesh.orientSim sim y z x e = Mesh.orientSim sim x y z e := by
    intro x hx y hy z hz hn
    refine rotate_sim hsim hn fun h => ?_
    simp only [List.mem_cons, List.not_mem_nil, or_false] at h
    rcases h with rfl | rfl | rfl
    exacts [he hx, he hy, he hz]
  obtain ⟨k, hj⟩ := (evenRearr_iff _ _).1 (tet_same hww hw hw')
  have j0 : a' = quad (a, b, c, d) (perms k 0) := hj 0
  have j1 : b' = quad (a, b, c, d) (perms k 1) := hj 1
  have j2 : c' = quad (a, b, c, d) (perms k 2) := hj 2
  have j3 : d' = quad (a, b, c, d) (perms k 3) := hj 3
  simp only [List.nodup_cons, List.mem_cons, List.not_mem_nil, or_false, not_or, not_false_eq_true,
    List.nodup_nil, and_true] at hd
  obtain ⟨⟨n1, n2, n3⟩, ⟨n4, n5⟩, n6⟩ := hd
  rw [Mesh.tetIntersectsVertex, Mesh.tetIntersectsVertex, j0, j1, j2, j3]
  exact four_rotations (fun x y z => Mesh.orientSim sim x y z e) k
    (r a (by simp) b (by simp) c (by simp) (by simp [n1, n2, n4]))
    (r b (by simp) c (by simp) a (by simp) (by simp [n4, Ne.symm n1, Ne.symm n2]))
    (r d (by simp) c (by simp) b (by simp) (by simp [Ne.symm n6, Ne.symm n5, Ne.symm n4]))
    (r c (by simp) b (by simp) d (by simp) (by simp [n6, n5, Ne.symm n4]))
    (r c (by simp) d (by simp) a (by simp) (by simp [n6, Ne.symm n2, Ne.symm n3]))
    (r d (by simp) a (by simp) c (by simp) (by simp [Ne.symm n6, n2, Ne.symm n3]))
    (r b (by simp) a (by simp) d (by simp) (by simp [n5, Ne.symm n1, n3]))
    (r a (by simp) d (by simp) b (by simp) (by simp [Ne.symm n5, n1, n3]))

end
end Tet
