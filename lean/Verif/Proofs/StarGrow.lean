import Verif.Proofs.StarFill
import Verif.Props.Cavity
import Verif.Props.Delaunay
import Verif.Model.Steiner

/-!
# The cavity of a point that is inside the initial tets
-/

namespace Tet
open Spec Vec4
variable {K V T : Type} [Field K] [LinearOrder K] [IsStrictOrderedRing K]
variable {m : Mesh (Pt K) V T} {id : VId} {E : List TId} {B : List Walker}

theorem pointTests_sphere (p q : V4) (h : Function.Injective (quad p)) (hs : SameTet p q) :
    (pointTests m id).inSphere p = (pointTests m id).inSphere q :=
  exact_invariant (H := Nat) (fun _ => 0) 0 (fun _ _ _ _ => true) (fun _ _ => 0) (fun _ _ => true) m.position id p q h hs

omit [IsStrictOrderedRing K] in
theorem pointTests_above {a b c : VId} (ha : Spec.Placed m a) (hb : Spec.Placed m b) (hc : Spec.Placed m c) (hd : Spec.Placed m id) :
    (pointTests m id).above (a, b, c) = true ↔ 0 < D (homv m) (a, b, c, id) := by
  obtain ⟨x, hx⟩ := orient_some ha hb hc hd
  rw [orient_D hx]
  simp [pointTests, hx]

omit [IsStrictOrderedRing K] in
theorem pointTests_rot (s t : V3) (h : Rotation s t) : (pointTests m id).above s = (pointTests m id).above t := by
  obtain ⟨a, b, c⟩ := s
  have key : ∀ a b c, (pointTests m id).above (a, b, c) = true → (pointTests m id).above (b, c, a) = true := by
    intro a b c h
    simp only [pointTests, Option.any_eq_true, decide_eq_true_eq] at h ⊢
    obtain ⟨x, h1, h2⟩ := h
    have h0 := h1
    unfold Mesh.orient at h1 ⊢
    obtain ⟨pa, ha, h1⟩ := Option.bind_eq_some_iff.1 h1
    obtain ⟨pb, hb, h1⟩ := Option.bind_eq_some_iff.1 h1
    obtain ⟨pc, hc, h1⟩ := Option.bind_eq_some_iff.1 h1
    obtain ⟨pd, hd, h1⟩ := Option.bind_eq_some_iff.1 h1
    have e : m.orient b c a id = some (Mesh.ghostSign [b, c, a, id] * orient3d pb pc pa pd) := by
      simp only [Mesh.orient, ha, hb, hc, hd, Option.bind_eq_bind, Option.bind_some]
      rfl
    refine ⟨_, e, ?_⟩
    rw [← orient_D e]
    rw [← orient_D h0] at h2
    have : D (homv m) (b, c, a, id) = D (homv m) (a, b, c, id) := cyc3 a b c _
    rw [this]
    exact h2
  rcases h with rfl | rfl | rfl
  · rfl
  · refine Bool.eq_iff_iff.2 ⟨key a b c, fun h => key _ _ _ (key _ _ _ h)⟩
  · refine Bool.eq_iff_iff.2 ⟨fun h => key _ _ _ (key _ _ _ h), key c a b⟩

/-- Tets whose outer triangles can be seen from a vertex that is behind no corner. -/
structure StarStart (m : Mesh (Pt K) V T) (id : VId) (p : Pt K) (E : List TId) (B : List Walker) : Prop where
  cons : Consistent m
  tiles : Tiles m
  at_ : At m id p
  live : ∀ k ∈ E, (m.tets.get k).isSome
  nodup : E.Nodup
  ne : E ≠ []
  bdry : Boundary m E B
  seen : ∀ w a b c, Outer m E w → m.tri w = some (a, b, c) → 0 < D (homv m) (a, b, c, id)
  front : ∀ w v b c d ka kb kc kd, w.tet ∈ E → m.tet4 w = some (v, b, c, d) → ¬ Behind m id v b c d ka kb kc kd
  apart : ∀ v, InMesh m v → ¬ At m v p

omit [IsStrictOrderedRing K] in
theorem placed_tri (hm : Consistent m) {w : Walker} {a b c : VId} (h : m.tri w = some (a, b, c)) :
    Spec.Placed m a ∧ Spec.Placed m b ∧ Spec.Placed m c := by
  obtain ⟨d, h⟩ := tri_tet4 h
  exact ⟨placed_tet hm ⟨w, h⟩ (by simp [list4]), placed_tet hm ⟨w, h⟩ (by simp [list4]), placed_tet hm ⟨w, h⟩ (by simp [list4])⟩

/-- The cavity can be filled. -/
theorem StarStart.grow {p : Pt K} (h : StarStart m id p E B) (hu : Unmarked m) :
    ∃ n S B', (∀ fuel, n ≤ fuel → Mesh.pointCavity (pointTests m id) B E [] m false true true fuel = some (m, B', S)) ∧
      S.Nodup ∧ (∀ k ∈ E, k ∈ S) ∧ Boundary m S B' ∧ StarCav m id S ∧ Fillable m S ∧
      (∀ w, EdgeLocked m w → Surrounded m S w → Surrounded m E w) ∧
      ∀ w w', TriAndEdgesLocked m w → m.toAdj w = some w' → w.tet ∈ S → w'.tet ∈ S → w.tet ∈ E ∧ w'.tet ∈ E := by
  have hm := h.cons
  have hpid : Spec.Placed m id := by
    obtain ⟨x, hx, -⟩ := h.at_.2
    exact .inr (by rw [hx]; simp)
  have habove : ∀ w vs, Outer m E w → m.tri w = some vs → (pointTests m id).above vs = true := by
    rintro w ⟨a, b, c⟩ hw ht
    obtain ⟨k1, k2, k3⟩ := placed_tri hm ht
    exact (pointTests_above k1 k2 k3 hpid).2 (h.seen w a b c hw ht)
  have hout : ∀ b ∈ B, Outer m E b := fun b hb => (h.bdry.exact b).1 ⟨b, hb, .inl rfl⟩
  have ha : (true = true) → ∀ w ∈ B, ∀ vs, m.tri w = some vs → (pointTests m id).above vs = true :=
    fun _ w hw vs hv => habove w vs (hout w hw) hv
  obtain ⟨n, E', S, B', k1, -, k3, k4, k5, k6, k7⟩ := C62_general hm hu (pointTests m id) pointTests_sphere pointTests_rot []
    true true h.live h.nodup h.bdry ha
  obtain ⟨n', k8⟩ := C62_locks hm hu (pointTests m id) pointTests_sphere pointTests_rot [] true true h.live h.nodup h.bdry ha
  have hsub : ∀ k ∈ E, k ∈ S := k7 (· ∈ E) ⟨fun k hk => by simp [hk], fun w w' vs hw hw' hn ht =>
    ⟨by simp, habove w vs ⟨hw, w', hw', hn⟩ ht⟩⟩
  have hne : S ≠ [] := by
    obtain ⟨k, hk⟩ := List.exists_mem_of_ne_nil E h.ne
    exact List.ne_nil_of_mem (hsub k hk)
  simp only [hne, if_false] at k1
  have hkind : ∀ k ∈ S, k ∈ E ∨ Conflicts (pointTests m id).inSphere m k := by
    intro k hk
    have := k3 k (k6.1 k hk)
    cases this with
    | start h => exact .inl h
    | step _ _ h => exact .inr h
  have hlive : ∀ k ∈ S, (m.tets.get k).isSome := by
    intro k hk
    rcases hkind k hk with hk | ⟨w, q, rfl, hq, -⟩
    · exact h.live k hk
    · obtain ⟨t, ht, -⟩ := Mesh.tet4_iff.1 hq
      rw [ht]; rfl
  have hfree : ∀ v, InMesh m v → ∃ w, m.first w = some v ∧ w.tet ∉ S ∧ (m.tets.get w.tet).isSome := by
    intro v hv
    obtain ⟨w, b, c, d, j1, ⟨ka, kb, kc, kd, j2⟩, j3⟩ := unswallowed hm h.tiles h.at_ hv (h.apart v hv)
    refine ⟨w, (tet4_parts j1).1, fun hS => ?_, ?_⟩
    · rcases hkind _ hS with hE | hc
      · exact h.front w v b c d ka kb kc kd hE j1 j2
      · exact j3 hc
    · obtain ⟨t, ht, -⟩ := Mesh.tet4_iff.1 j1
      rw [ht]; rfl
  have hcav : StarCav m id S := by
    refine ⟨hm, h.tiles, hlive, ?_, ?_⟩
    · rintro w a b c ⟨h1, w', h2, h3⟩ ht
      obtain ⟨j1, j2, j3⟩ := placed_tri hm ht
      exact (pointTests_above j1 j2 j3 hpid).1 (k6.2 w w' (a, b, c) h1 h2 h3 ht).2
    · obtain ⟨k, hk⟩ := List.exists_mem_of_ne_nil E h.ne
      obtain ⟨t, ht⟩ := Option.isSome_iff_exists.1 (h.live k hk)
      obtain ⟨w, -, h2, h3⟩ := hfree _ ⟨⟨k, 0⟩, by rw [Mesh.first, ht]; rfl⟩
      exact ⟨w.tet, h3, h2⟩
  have hfill : Fillable m S := hcav.fillable fun w v hw hv => by
    obtain ⟨w', h1, h2, -⟩ := hfree v ⟨w, hv⟩
    exact ⟨w', h1, h2⟩
  have h9 := k8 (max n n') m B' S (le_max_right _ _) (k1 _ (le_max_left _ _))
  exact ⟨n, S, B', k1, k4, hsub, k5, hcav, hfill, h9.1, h9.2⟩

end Tet
