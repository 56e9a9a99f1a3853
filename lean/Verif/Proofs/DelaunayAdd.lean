import Verif.Proofs.DelaunaySearch
import Verif.Proofs.Delaunay
import Verif.Proofs.FlipInMarks
import Verif.Props.FlipIn

/-!
# Adding a vertex
-/

namespace Tet
open Spec
variable {P V T D R K : Type}

theorem inMesh_of_hasTet {m : Mesh P V T} {q : V4} (h : HasTet m q) (j : Fin 4) : InMesh m (quad q j) := by
  obtain ⟨w, hw⟩ := h
  have : ∀ j : Fin 4, ∃ p : Perm, perms p 0 = j := by decide
  obtain ⟨p, rfl⟩ := this j
  exact ⟨w.perm p, (tet4_parts (tet4_perm hw p)).1⟩

/-- The vertices of the tets stay vertices of tets. -/
theorem coned_inMesh {m m' : Mesh P V T} {id : VId} {E : List TId} {B : List Walker} (hf : Fillable m E)
    (hB : Boundary m E B) (h : Coned m m' id E B) {v : VId} (hv : InMesh m v) : InMesh m' v := by
  obtain ⟨old, new, h1, h2, -, -, h4⟩ := h.tets
  obtain ⟨w, hw⟩ := hv
  obtain ⟨b, c, d, hq⟩ := first_tet4 hw
  by_cases hex : ∃ p ∈ old, SameTet p (v, b, c, d)
  · obtain ⟨p, hp, σ, -, hσ⟩ := hex
    have hp' : some p ∈ E.map (fun k => m.tet4 (Mesh.walkerFromTetId k)) := by
      rw [h1]; exact List.mem_map_of_mem hp
    obtain ⟨k, hk, hkp⟩ := List.mem_map.1 hp'
    have hv : v = quad p (σ 0) := hσ 0
    have : ∀ j : Fin 4, ∃ p : Perm, perms p 0 = j := by decide
    obtain ⟨r, hr⟩ := this (σ 0)
    have hfirst : m.first ((Mesh.walkerFromTetId k).perm r) = some v := by
      rw [hv, ← hr]
      exact (tet4_parts (tet4_perm hkp r)).1
    obtain ⟨w', ho, hw'⟩ := hf.surface ((Mesh.walkerFromTetId k).perm r) v hk hfirst
    obtain ⟨b', hb', hs⟩ := (hB.exact w').2 ho
    have hm : m.tri b' ∈ new.map (fun q => some (q.1, q.2.1, q.2.2.1)) := by
      rw [← h2]; exact List.mem_map_of_mem hb'
    obtain ⟨q, hq, hqt⟩ := List.mem_map.1 hm
    have hmem : v = q.1 ∨ v = q.2.1 ∨ v = q.2.2.1 := by
      obtain ⟨t, ht, h5⟩ := Mesh.tri_iff.1 hqt.symm
      have : t.tri b'.edge = (q.1, q.2.1, q.2.2.1) := h5
      simp only [Tet.tri, Prod.mk.injEq] at this
      obtain ⟨e1, e2, e3⟩ := this
      rcases hs with rfl | rfl | rfl
      · simp only [Mesh.first, ht, Option.map_some, Option.some.injEq] at hw'
        exact .inl (hw'.symm.trans e1)
      · have : m.first b'.nfe = some q.2.1 := by
          rw [Mesh.first, show b'.nfe.tet = b'.tet from rfl, ht, Option.map_some, ← e2]
          congr 1
          exact congrArg (·.1) (Tet.tri_nfe t b'.edge)
        rw [hw'] at this
        exact .inr (.inl (Option.some.inj this))
      · have : m.first b'.pfe = some q.2.2.1 := by
          rw [Mesh.first, show b'.pfe.tet = b'.tet from rfl, ht, Option.map_some, ← e3]
          congr 1
          exact congrArg (·.1) (Tet.tri_pfe t b'.edge)
        rw [hw'] at this
        exact .inr (.inr (Option.some.inj this))
    have ht : HasTet m' q := (h4 q).2 (.inr ⟨q, hq, 1, by simp, fun _ => rfl⟩)
    obtain ⟨q0, q1, q2, q3⟩ := q
    rcases hmem with rfl | rfl | rfl
    · exact inMesh_of_hasTet ht 0
    · exact inMesh_of_hasTet ht 1
    · exact inMesh_of_hasTet ht 2
  · have ht : HasTet m' (v, b, c, d) := (h4 _).2 (.inl ⟨⟨w, hq⟩, fun p hp hs => hex ⟨p, hp, hs⟩⟩)
    exact inMesh_of_hasTet ht 0

theorem coned_new {m m' : Mesh P V T} {id : VId} {E : List TId} {B : List Walker} (hf : Fillable m E)
    (hB : Boundary m E B) (h : Coned m m' id E B) (hE : E ≠ []) : InMesh m' id := by
  obtain ⟨old, new, h1, h2, h3, -, h4⟩ := h.tets
  obtain ⟨k, hk⟩ := List.exists_mem_of_ne_nil E hE
  obtain ⟨t, ht⟩ := Option.isSome_iff_exists.1 (hf.live k hk)
  obtain ⟨w', ho, hw'⟩ := hf.surface ⟨k, 0⟩ _ hk (by rw [Mesh.first, ht]; rfl)
  obtain ⟨b', hb', hs⟩ := (hB.exact w').2 ho
  have hm : m.tri b' ∈ new.map (fun q => some (q.1, q.2.1, q.2.2.1)) := by
    rw [← h2]; exact List.mem_map_of_mem hb'
  obtain ⟨q, hq, hqt⟩ := List.mem_map.1 hm
  have ht : HasTet m' q := (h4 q).2 (.inr ⟨q, hq, 1, by simp, fun _ => rfl⟩)
  rw [← h3 q hq]
  exact inMesh_of_hasTet ht 3

/-- What is done after the vertex has been stored. -/
def Mesh.addStored (g : DelaunayGeo P D R K) (order : List TId → List TId) (fuel : Nat) (m : Mesh P V T)
    (id start : VId) : Option (Mesh P V T × VId) := do
  let (m, k) ← m.notDelaunay g order fuel id start
  let (m, boundary, enclosed) ← Mesh.pointCavity (g.tests m.position id) [⟨k, 0⟩, ⟨k, 1⟩, ⟨k, 2⟩, ⟨k, 3⟩] [k] [] m
    true false true fuel
  let (m, _) ← m.flipInVertexUnchecked id boundary enclosed fuel
  return (m, id)

theorem addStored_spec {g : DelaunayGeo P D R K} (hg : Distances g) {order : List TId → List TId}
    (ho : ∀ l, (order l).Perm l) {m : Mesh P V T} (hr : Ready m) {id start : VId} {x : Vertex P V}
    (hid : m.vertices.get id = some x) (hx : x.tet.tet = idMax)
    (hsym : Invariant g)
    (hs : InMesh m start) (hsg : start ≠ GHOST) :
    Inserts g m id fun fuel => m.addStored g order fuel id start := by
  obtain ⟨N, r, h1, h2⟩ := notDelaunay_spec hg ho hr.consistent hr.noMarks (by rw [hid]; rfl) hs hsg
  rcases h2 with ⟨k, rfl, hk, hvio⟩ | ⟨rfl, hgave⟩
  · obtain ⟨n, B, E, h3, h4, h5, h6⟩ := C41_start hr.consistent hr.unmarked (g.tests m.position id) (hsym _ _) hk
    refine ⟨max N (max n (3 * B.length)), .inr ⟨k, E, B, hvio, h4, h5, h6, ?_⟩⟩
    intro hf nT nE hT hE rT rE
    obtain ⟨m', B', old, new, k1, k2, k3, k4, k5, k6, -, k8, k9, k10, k11, -⟩ :=
      C42_fill hr.consistent hr.tidy hf h4 h6 hid hx hT hE rT rE
    have hnm : NMk m' := NMk.flipIn (k1 _ (Nat.le_refl _)) ⟨hr.consistent.toT.stored.2.2, hr.noMarks⟩
    have hcone : Coned m m' id E B := ⟨⟨old, new, k3, k4, k5, k6⟩, k8, fun u => by
      have := congrArg (Option.map fun y : P × V × _ => (y.1, y.2.1)) (k9 u)
      simpa [Option.map_map, Function.comp_def] using this⟩
    have hne : E ≠ [] := List.ne_nil_of_mem ((h5 k).2 (.start (by simp)))
    refine ⟨m', ?_, ⟨k2, k11 hr.unmarked, k10, hnm.marks⟩, hcone, coned_new hf h6 hcone hne,
      fun v hv => coned_inMesh hf h6 hcone hv⟩
    intro fuel hfu
    beta_reduce
    rw [Mesh.addStored, h1 fuel (by omega)]
    simp only [Option.map_some, Option.bind_eq_bind, Option.bind_some]
    rw [h3 fuel (by omega)]
    simp only [Option.bind_some]
    rw [k1 fuel (by omega)]
    rfl
  · refine ⟨N, .inl ⟨hgave, fun fuel hf => ?_⟩⟩
    beta_reduce
    rw [Mesh.addStored, h1 fuel hf]
    rfl

/-- The data of a vertex of no tet can be replaced. -/
theorem ConsistentT.replaceVertex {m : Mesh P V T} (hm : ConsistentT m) {id : VId} {y : Vertex P V}
    (hid : m.vertices.get id = some y) (hy : y.tet.tet = idMax) {p : P} {x : V} {vs r}
    (h : m.vertices.insertWithKey id (Vertex.new invalidWalker p x) = some (vs, r)) :
    ConsistentT { m with vertices := vs } ∧ ∀ u, vs.get u = if u = id then some (Vertex.new invalidWalker p x) else m.vertices.get u := by
  obtain ⟨vs', a1, a2, a3, -⟩ := IdMap.insertWithKey_spec id (Vertex.new invalidWalker p x) hm.stored.1 (hm.stored.1.lt_max hid)
  rw [h] at a1
  simp only [Option.some.injEq, Prod.mk.injEq] at a1
  obtain ⟨rfl, -⟩ := a1
  refine ⟨⟨⟨a2, hm.stored.2⟩, hm.adj, hm.distinct, ?_, ?_, hm.eptr, hm.eunique, hm.eused,
    hm.tunique, hm.ring, hm.locks, hm.tsound, hm.tcomplete⟩, a3⟩
  · intro u z hz
    change vs.get u = some z at hz
    rw [a3] at hz
    split_ifs at hz with he
    · cases hz
      exact .inl rfl
    · exact hm.vref u z hz
  · intro k t i ht
    rcases hm.vlive k t i ht with h5 | ⟨z, t', h5, h6⟩
    · exact .inl h5
    · refine .inr ⟨z, t', ?_, h6⟩
      change vs.get _ = _
      rw [a3, if_neg, h5]
      intro he
      rw [he, hid] at h5
      cases h5
      rw [hy, hm.stored.2.2.get_max] at h6
      cases h6.1

theorem Spec.Ready.withVertices {m : Mesh P V T} (hr : Ready m) {vs : IdMap (Vertex P V)} {id : VId} {p : P} {x : V}
    (hc : ConsistentT { m with vertices := vs })
    (hvs : ∀ u, vs.get u = if u = id then some (Vertex.new invalidWalker p x) else m.vertices.get u) :
    Ready { m with vertices := vs } := by
  refine ⟨hc.toSpec, hr.unmarked, ⟨hr.tidy.tets, hr.tidy.edges, ?_, hr.tidy.ghost⟩, hr.noMarks.1, ?_, hr.noMarks.2.2⟩
  · intro v y hy
    change vs.get v = some y at hy
    rw [hvs] at hy
    split_ifs at hy
    · cases hy; rfl
    · exact hr.tidy.vertices v y hy
  · intro v y hy
    change vs.get v = some y at hy
    rw [hvs] at hy
    split_ifs at hy
    · cases hy; rfl
    · exact hr.noMarks.2.1 v y hy

end Tet
