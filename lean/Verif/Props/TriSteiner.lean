import Verif.Props.Steiner
import Verif.Props.Transform
import Verif.Proofs.TriRecover

/-!
# C92, C93: recovering triangles with Steiner points
-/

namespace Tet
open Spec
variable {P K V T C : Type} [Field K] [LinearOrder K]

/-! ### C92: the region of the triangulation -/

/-- C92: the triangles of `cdt_region` are the faces that can be reached from the face at the edge without crossing a constraint,
each once. -/
theorem C92_region {env : SteinerEnv K C} (ho : ∀ l, (env.orderF l).Perm l) {fuel : Nat} {v0 v1 : VId} {cdt : C} {toCdt : VId → Option Nat}
    {fromCdt : Nat → Option VId} {tris : List V3} (h : cdtRegion env fuel v0 v1 cdt toCdt fromCdt = some tris) :
    ∃ i j e fs, toCdt v0 = some i ∧ toCdt v1 = some j ∧ env.ops.edgeBetween cdt i j = some e ∧ fs.Nodup ∧
      (∀ f, f ∈ fs ↔ FaceReached env.ops cdt (env.ops.face cdt e) f) ∧
      List.Forall₂ (fun f t => ∃ a b c, env.ops.triangle cdt f = some (a, b, c) ∧ fromCdt a = some t.1 ∧ fromCdt b = some t.2.1 ∧
        fromCdt c = some t.2.2) fs tris := by
  simp only [cdtRegion, Option.bind_eq_bind] at h
  obtain ⟨i, h1, h⟩ := Option.bind_eq_some_iff.1 h
  obtain ⟨j, h2, h⟩ := Option.bind_eq_some_iff.1 h
  obtain ⟨e, h3, h⟩ := Option.bind_eq_some_iff.1 h
  obtain ⟨R, h4, h⟩ := Option.bind_eq_some_iff.1 h
  obtain ⟨h5, h6⟩ := regionLoop_reached h4
  refine ⟨i, j, e, env.orderF R, h1, h2, h3, (ho R).nodup_iff.2 h5, fun f => (ho R).mem_iff.trans (h6 f), ?_⟩
  clear * - h
  generalize env.orderF R = fs at h
  induction fs generalizing tris with
  | nil =>
    simp only [List.mapM_nil, Option.pure_def, Option.some.injEq] at h
    subst h
    exact .nil
  | cons f fs ih =>
    rw [List.mapM_cons, Option.bind_eq_bind] at h
    obtain ⟨t, k1, h⟩ := Option.bind_eq_some_iff.1 h
    rw [Option.bind_eq_bind] at h
    obtain ⟨ts, k2, h⟩ := Option.bind_eq_some_iff.1 h
    cases h
    obtain ⟨⟨a, b, c⟩, q1, k1⟩ := Option.bind_eq_some_iff.1 k1
    obtain ⟨va, q2, k1⟩ := Option.bind_eq_some_iff.1 k1
    obtain ⟨vb, q3, k1⟩ := Option.bind_eq_some_iff.1 k1
    obtain ⟨vc, q4, k1⟩ := Option.bind_eq_some_iff.1 k1
    cases k1
    exact .cons ⟨a, b, c, q1, q2, q3, q4⟩ (ih k2)

/-- C92: if only finitely many faces can be reached, the search ends; so there is a result unless a handle or a vertex is unknown. -/
theorem C92_ends {env : SteinerEnv K C} (ho : ∀ l, (env.orderF l).Perm l) {v0 v1 : VId} {cdt : C} {toCdt : VId → Option Nat}
    {fromCdt : Nat → Option VId} {i j e : Nat} (h0 : toCdt v0 = some i) (h1 : toCdt v1 = some j) (he : env.ops.edgeBetween cdt i j = some e)
    {F : List Nat} (hF : ∀ f, FaceReached env.ops cdt (env.ops.face cdt e) f → f ∈ F)
    (ht : ∀ f, FaceReached env.ops cdt (env.ops.face cdt e) f → ∃ a b c va vb vc, env.ops.triangle cdt f = some (a, b, c) ∧
      fromCdt a = some va ∧ fromCdt b = some vb ∧ fromCdt c = some vc) :
    ∃ tris, Settles (fun fuel => cdtRegion env fuel v0 v1 cdt toCdt fromCdt) (some tris) := by
  obtain ⟨n, R, hR⟩ := regionLoop_ends (ops := env.ops) (cdt := cdt) (Q := FaceReached env.ops cdt (env.ops.face cdt e))
    (fun f a hf ha hc => .step hf ha hc) hF F.length [e] [] (by simp) (by simp) (by simp) (by
      intro a ha
      obtain rfl := List.mem_singleton.1 ha
      exact .start)
  obtain ⟨-, h6⟩ := regionLoop_reached hR
  obtain ⟨tris, hm, -⟩ := mapM_all (f := fun f => do
      let (a, b, c) ← env.ops.triangle cdt f
      return ((← fromCdt a, ← fromCdt b, ← fromCdt c) : V3)) (env.orderF R) (by
    intro f hf
    obtain ⟨a, b, c, va, vb, vc, k1, k2, k3, k4⟩ := ht f ((h6 f).1 ((ho R).mem_iff.1 hf))
    exact ⟨(va, vb, vc), by simp [k1, k2, k3, k4]⟩)
  refine ⟨tris, n, fun k hk => ?_⟩
  simp only [cdtRegion, h0, h1, he, regionLoop_le hR hk, Option.bind_eq_bind, Option.bind_some]
  exact hm

/-- C92, negation of the intent: the search is meant to cross the edges that are not constraints.  It goes on with the edges that
`adjacent_edges` lists, not with their opposites; if these edges have the face itself on their left, as the documentation of the
crate says, then the region is a single face, whatever is constrained. -/
theorem C92_one_face {env : SteinerEnv K C} (ho : ∀ l, (env.orderF l).Perm l) {fuel : Nat} {v0 v1 : VId} {cdt : C} {toCdt : VId → Option Nat}
    {fromCdt : Nat → Option VId} {tris : List V3} (h : cdtRegion env fuel v0 v1 cdt toCdt fromCdt = some tris)
    (hs : ∀ f, ∀ a ∈ env.ops.sides cdt f, env.ops.face cdt a = f) : tris.length = 1 := by
  obtain ⟨i, j, e, fs, -, -, -, h1, h2, h3⟩ := C92_region ho h
  have h4 : ∀ f, FaceReached env.ops cdt (env.ops.face cdt e) f → f = env.ops.face cdt e := by
    intro f hf
    induction hf with
    | start => rfl
    | step _ ha _ ih => rw [hs _ _ ha, ih]
  have h5 : fs = [env.ops.face cdt e] := by
    refine List.perm_singleton.1 ((List.perm_ext_iff_of_nodup h1 (by simp)).2 fun f => ?_)
    rw [h2, List.mem_singleton]
    exact ⟨h4 f, fun k => k ▸ .start⟩
  rw [← h3.length_eq, h5]
  rfl

variable [IsStrictOrderedRing K]

/-! ### C93: the whole -/

/-- C93: `recover_tri_with_steiner_points` in a mesh that fills space, whatever the triangulation does and whatever the orders of
hash sets are.  If it returns, then the mesh still fills space, and the triangle is paved with locked triangles of the mesh.
Assumed are that triangles have locked edges if they are locked, and that the transform is affine and turns the triangle
counterclockwise. -/
theorem C93_recover {m : Mesh (Pt K) V T} {env : SteinerEnv K C} (hc : IsCdt env.ops) (ho : ∀ l, (env.orderE l).Perm l)
    (steps depth rounds : Nat) (hs : Sound m) (hf : FullLocks m) {t : V3} {p0 p1 p2 : Pt K} {y0 y1 y2 : Vertex (Pt K) V} (h0 : At m t.1 p0)
    (h1 : At m t.2.1 p1) (h2 : At m t.2.2 p2) (hy0 : m.vertices.get t.1 = some y0) (hy1 : m.vertices.get t.2.1 = some y1)
    (hy2 : m.vertices.get t.2.2 = some y2) (hxy : Flattens (env.xy p0 p1 p2) p0 p1 p2) :
    ∃ N, ∀ fuel ≥ N, ∀ m' l0 l1 l2 l3, recoverTriWithSteiner env fuel steps depth rounds t m = some (m', l0, l1, l2, l3) →
      TriRecovered m m' t p0 p1 p2 y0.value y1.value y2.value l0 l1 l2 l3 := by
  obtain ⟨N, h⟩ := recoverTri_gives hc ho steps depth rounds hs hf h0 h1 h2 ⟨y0, hy0, rfl⟩ ⟨y1, hy1, rfl⟩ ⟨y2, hy2, rfl⟩ hxy
  exact ⟨N, fun n hn m' l0 l1 l2 l3 hr => h n hn _ hr⟩

/-! ### Examples -/

/-- A transform to a plane; not an isometry, but affine, and the triangle is counterclockwise. -/
def gramXy (p0 p1 p2 p : Pt ℚ) : ℚ × ℚ := ((p1.sub p0).dot (p.sub p0), (p2.sub p0).dot (p.sub p0))

/-- A simple triangulation: the triangle at an edge has the latest vertex on the left of the edge. -/
def lastOps : CdtOps ℚ (List (ℚ × ℚ)) where
  empty := []
  insert c p := (c ++ [p], c.length)
  addConstraint c _ _ := c
  existsConstraint _ _ _ := true
  vertex c i := c[i]?
  edgeBetween _ i j := some (i * 100 + j)
  face _ e := e
  sides _ f := [f]
  isConstraint _ _ := false
  triangle c f := do
    let a ← c[f / 100]?
    let b ← c[f % 100]?
    let k ← (List.range c.length).reverse.find? fun k => match c[k]? with
      | some p => decide (0 < planeSide a b p)
      | none => false
    return (f / 100, f % 100, k)

theorem lastOps_cdt : IsCdt lastOps := by
  refine ⟨fun c p => by simp [lastOps], fun c p i q h => ?_, fun _ _ _ _ => rfl, fun c f a b d h => ?_⟩
  · change c[i]? = some q at h
    change (c ++ [p])[i]? = some q
    rw [List.getElem?_append_left (by
      by_contra hi
      rw [List.getElem?_eq_none (by omega)] at h
      cases h)]
    exact h
  · simp only [lastOps, Option.bind_eq_bind] at h
    obtain ⟨pa, h1, h⟩ := Option.bind_eq_some_iff.1 h
    obtain ⟨pb, h2, h⟩ := Option.bind_eq_some_iff.1 h
    obtain ⟨k, h3, h⟩ := Option.bind_eq_some_iff.1 h
    cases h
    have h4 := List.find?_some h3
    cases h5 : c[d]? with
    | none => simp [h5] at h4
    | some pd =>
      simp only [h5, decide_eq_true_eq] at h4
      refine ⟨?_, ?_, ?_⟩
      · intro e
        rw [e, h2] at h1
        cases h1
        simp [planeSide, mul_comm] at h4
      · intro e
        rw [e, h5] at h2
        cases h2
        simp [planeSide] at h4
      · intro e
        rw [e, h1] at h5
        cases h5
        simp [planeSide] at h4

def lastEnv : SteinerEnv ℚ (List (ℚ × ℚ)) := ⟨lastOps, gramXy, id, id⟩

/-- The region of an edge of a triangle; its sides have the face itself on the left. -/
example : cdtRegion lastEnv 10 1 2 [(0, 0), (1, 0), (0, 1)] (fun v => some (v - 1)) (fun i => some (i + 1)) = some [(1, 2, 3)] ∧
    ∀ (c : List (ℚ × ℚ)) f, ∀ a ∈ lastOps.sides c f, lastOps.face c a = f := by
  refine ⟨by decide +kernel, fun c f a ha => ?_⟩
  simpa [lastOps] using ha

/-- Two faces with a common edge that is not a constraint, where the list of sides leads to the other face. -/
def twoOps : CdtOps ℚ Unit := { lastOps with
  empty := (), insert := fun _ _ => ((), 0), addConstraint := fun _ _ _ => (), existsConstraint := fun _ _ _ => true, vertex := fun _ _ => none
  edgeBetween := fun _ _ _ => some 0, face := fun _ e => e % 2, sides := fun _ f => [3 - f, 4], isConstraint := fun _ e => e == 4
  triangle := fun _ f => if f = 0 then some (0, 1, 2) else some (2, 1, 3) }

/-- All hypotheses of `C92_ends`; both faces are in the region. -/
example : (∀ f, FaceReached twoOps () 0 f → f ∈ [0, 1]) ∧
    cdtRegion ⟨twoOps, gramXy, id, id⟩ 10 0 1 () some some = some [(2, 1, 3), (0, 1, 2)] := by
  refine ⟨fun f hf => ?_, by decide +kernel⟩
  have : f < 2 := by
    cases hf with
    | start => decide
    | step => exact Nat.mod_lt _ (by decide)
  simp only [List.mem_cons, List.not_mem_nil, or_false]
  omega

/-- `ratB` with a center that is in no plane of three vertices; the edge from 0 to 4 crosses the triangle 1, 2, 3. -/
def ratCross : Option (Mesh (Pt ℚ) Nat Unit) := ratB.map fun m => { m with center := ⟨1 / 5, 1 / 4, 3 / 10⟩ }

theorem ratCross_sound : ∃ m, ratCross = some m ∧ Sound m := by
  obtain ⟨m, h1, h2⟩ := ratB_recover
  let m' : Mesh (Pt ℚ) Nat Unit := { m with center := ⟨1 / 5, 1 / 4, 3 / 10⟩ }
  have h1' : ratCross = some m' := by rw [ratCross, h1]; rfl
  have h2' : Consistent m' := by
    have hc := h2.consistent.toT
    exact ConsistentT.toSpec ⟨hc.stored, hc.adj, hc.distinct, hc.vref, hc.vlive, hc.eptr, hc.eunique, hc.eused,
      hc.tunique, hc.ring, hc.locks, hc.tsound, hc.tcomplete⟩
  have hp := positive_of_check (of_map (f := positiveCheck) h1' (by decide +kernel))
  have ho := offPlanes_of_check (of_map (f := fun m => offPlanesCheck m ⟨1 / 7, 1 / 5, 1 / 3⟩) h1' (by decide +kernel))
  have hl := layers_check (of_map (f := fun m => holdersCheck m ⟨1 / 7, 1 / 5, 1 / 3⟩) (b := [8]) h1' (by decide +kernel)) (by decide)
  exact ⟨m', h1', h2', (C75_criterion h2' hp ho).2 hl, tidy_of_check (of_map (f := tidyCheck) h1' (by decide +kernel)),
    unmarked_of_check (of_map (f := unmarkedCheck) h1' (by decide +kernel))⟩

/-- No triangle is locked. -/
def noLocks (m : Mesh P V T) : Bool := m.tets.keys.all fun k => (m.tets.get k).all fun t => decide (∀ c, t.flags.locked (face c) = false)

theorem fullLocks_of_check {m : Mesh P V T} (h : noLocks m = true) : FullLocks m := by
  unfold noLocks at h
  intro a b c hl
  obtain ⟨j, e, t, h1, h2, h3⟩ := locked_at.1 hl
  rw [List.all_eq_true] at h
  have h4 := h j (IdMap.mem_keys.2 (Option.isSome_iff_exists.2 ⟨t, h1⟩))
  rw [h1, Option.all_some, decide_eq_true_iff] at h4
  rw [h4] at h3
  cases h3

/-- All hypotheses of `C93_recover`.  The triangle 1, 2, 3 is recovered with a Steiner point in the edge from 0 to 4. -/
example : ∃ m : Mesh (Pt ℚ) Nat Unit, ratCross = some m ∧ IsCdt lastEnv.ops ∧ (∀ l, (lastEnv.orderE l).Perm l) ∧ Sound m ∧ FullLocks m ∧
    At m 1 ⟨1, 0, 0⟩ ∧ At m 2 ⟨0, 1, 0⟩ ∧ At m 3 ⟨0, 0, 1⟩ ∧
    Flattens (lastEnv.xy ⟨1, 0, 0⟩ ⟨0, 1, 0⟩ ⟨0, 0, 1⟩) ⟨1, 0, 0⟩ ⟨0, 1, 0⟩ ⟨0, 0, 1⟩ ∧ ¬ HasTri m (1, 2, 3) ∧
    (recoverTriWithSteiner lastEnv 100 40 4 10 (1, 2, 3) m).map (·.2) = some ([], [], [], [5]) := by
  obtain ⟨m, h1, h2⟩ := ratCross_sound
  have hat : ∀ (v : VId) (p : Pt ℚ), v ≠ GHOST → ratCross.map (fun m => (m.vertices.get v).map fun x => x.position) = some (some p) → At m v p :=
    fun v p hv h => ⟨hv, Option.map_eq_some_iff.1 (of_map (f := fun m => (m.vertices.get v).map fun x => x.position) h1 h)⟩
  refine ⟨m, h1, lastOps_cdt, fun l => List.Perm.refl _, h2, fullLocks_of_check (of_map (f := noLocks) h1 (by decide +kernel)),
    hat 1 _ (by decide) (by decide +kernel), hat 2 _ (by decide) (by decide +kernel), hat 3 _ (by decide) (by decide +kernel),
    ⟨⟨⟨-1, 1, 0⟩, ⟨-1, 0, 1⟩, 1, 1, fun p => ?_⟩, by decide +kernel⟩, tri_of_check (of_map (f := fun m => noTri m (1, 2, 3)) h1 (by decide +kernel)),
    of_map (f := fun m => (recoverTriWithSteiner lastEnv 100 40 4 10 (1, 2, 3) m).map (·.2)) h1 (by decide +kernel)⟩
  simp only [lastEnv, gramXy, Pt.sub, Pt.dot]
  refine Prod.ext ?_ ?_ <;> simp only <;> ring

/-- The first Steiner point for the triangle is at the vertex 6, and cannot be inserted. -/
def strayCheck (r : (Pt ℚ → ℚ × ℚ) × TriSteiner ℚ Nat Unit (List (ℚ × ℚ)) × List VId × List VId × List VId) : Bool :=
  let st := r.2.1
  decide (r.2.2 = ([], [6], [])) && match st.edges with
    | [] => false
    | e :: _ => (cdtRegion lastEnv 100 e.1 e.2 st.cdt st.toCdt st.fromCdt).any fun tris => (st.mesh.trisPoints 100 tris e).any fun
      | [] => false
      | x :: _ => decide (x.1 = (3, 6)) && decide ((st.mesh.vertices.get 6).map (fun y => y.position) = some x.2) &&
        (st.mesh.vertices.insert (Vertex.new invalidWalker x.2 2)).any fun (vs, s) =>
          (Mesh.triSteinerStart { st.mesh with vertices := vs } 100 x.1).any fun (B, _) =>
            (B.foldlM (Mesh.markInitial (pointTests { st.mesh with vertices := vs } s) true) { st.mesh with vertices := vs }).isNone

/-- C93, negation of the intent: even a triangle that is in the mesh after its edges have been recovered can be the reason for a
panic, depending on the order of its vertices.  In `ratLong` the edge from 0 to 4 gets the Steiner point 6, and the triangle
consists of two triangles of the mesh then.  For 4, 0, 2 this is found, but for 2, 0, 4 the edge from 3 to 6 is taken for an
intersection at 6 (as in `C87_own`), and the assertion that the tets around it can be seen from the new point fails. -/
theorem C93_panics : ∃ m : Mesh (Pt ℚ) Nat Unit, ratLong = some m ∧ Sound m ∧ FullLocks m ∧
    (recoverTriWithSteiner lastEnv 100 100 4 10 (4, 0, 2) m).map (·.2) = some ([6], [], [], []) ∧
    ∃ xy st l0 l1 l2 e es tris x xs, triStart lastEnv 100 100 4 (2, 0, 4) m = some (xy, st, l0, l1, l2) ∧ (l0, l1, l2) = ([], [6], []) ∧
      lastEnv.orderE st.edges = e :: es ∧ cdtRegion lastEnv 100 e.1 e.2 st.cdt st.toCdt st.fromCdt = some tris ∧
      st.mesh.trisPoints 100 tris e = some (x :: xs) ∧ x.1 = (3, 6) ∧ At st.mesh 6 x.2 ∧
      ∃ vs s B E, st.mesh.vertices.insert (Vertex.new invalidWalker x.2 2) = some (vs, s) ∧
        Mesh.triSteinerStart { st.mesh with vertices := vs } 100 x.1 = some (B, E) ∧
        ∀ n, Mesh.pointCavity (pointTests { st.mesh with vertices := vs } s) B E [] { st.mesh with vertices := vs } false true true n = none := by
  obtain ⟨m, h1, h2, -⟩ := ratLong_sound
  refine ⟨m, h1, h2, fullLocks_of_check (of_map (f := noLocks) h1 (by decide +kernel)),
    of_map (f := fun m => (recoverTriWithSteiner lastEnv 100 100 4 10 (4, 0, 2) m).map (·.2)) h1 (by decide +kernel), ?_⟩
  have h := of_map (f := fun m => (triStart lastEnv 100 100 4 (2, 0, 4) m).any strayCheck) (b := true) h1 (by decide +kernel)
  rw [Option.any_eq_true] at h
  obtain ⟨⟨xy, st, l0, l1, l2⟩, h3, h4⟩ := h
  simp only [strayCheck, Bool.and_eq_true, decide_eq_true_eq] at h4
  obtain ⟨h4, h5⟩ := h4
  cases hE : st.edges with
  | nil => simp [hE] at h5
  | cons e es =>
  simp only [hE, Option.any_eq_true] at h5
  obtain ⟨tris, h6, l, h7, h5⟩ := h5
  cases l with
  | nil => cases h5
  | cons x xs =>
  simp only [Bool.and_eq_true, decide_eq_true_eq, Option.any_eq_true] at h5
  obtain ⟨⟨h8, h9⟩, ⟨vs, s⟩, h10, ⟨B, E⟩, h11, h12⟩ := h5
  refine ⟨xy, st, l0, l1, l2, e, es, tris, x, xs, h3, h4, hE, h6, h7, h8, ⟨by decide, Option.map_eq_some_iff.1 h9⟩, vs, s, B, E, h10, h11, fun n => ?_⟩
  rw [Option.isNone_iff_eq_none] at h12
  simp [Mesh.pointCavity, h12]

end Tet
