import Mathlib.Data.Set.Card
import Mathlib.Algebra.BigOperators.Group.Finset.Basic
import Mathlib.Tactic.Ring
import Verif.Spec.Steps
import Verif.Proofs.MeshFacts

/-!
# Flips as steps, and counting

What every flip step does, and why a consistent mesh has two triangles per tet.
-/

namespace Tet
open Spec
variable {P V T : Type}

/-! ## Vertices in tets -/

theorem list4_first {m : Mesh P V T} {q : V4} {v : VId} (h : HasTet m q) (hv : v ∈ list4 q) :
    ∃ b c d, HasTet m (v, b, c, d) := by
  obtain ⟨a, b, c, d⟩ := q
  simp only [list4, List.mem_cons, List.not_mem_nil, or_false] at hv
  rcases hv with rfl | rfl | rfl | rfl
  · exact ⟨_, _, _, h⟩
  · exact ⟨_, _, _, HasTet.same h (sameTet_code 2 rfl)⟩
  · exact ⟨_, _, _, HasTet.same h (sameTet_code 1 rfl)⟩
  · exact ⟨_, _, _, HasTet.same h (sameTet_code 0 rfl)⟩

theorem inMesh_iff {m : Mesh P V T} {v : VId} : InMesh m v ↔ ∃ q, HasTet m q ∧ v ∈ list4 q := by
  constructor
  · rintro ⟨w, hw⟩
    simp only [Mesh.first, Option.map_eq_some_iff] at hw
    obtain ⟨t, h1, h2⟩ := hw
    exact ⟨t.tet w.edge, ⟨w, Mesh.tet4_iff.2 ⟨t, h1, rfl⟩⟩, by simp [list4, Tet.tet, h2]⟩
  · rintro ⟨q, h, hv⟩
    obtain ⟨b, c, d, w, hw⟩ := list4_first h hv
    exact ⟨w, (tet4_parts hw).1⟩

theorem Spec.Replaces.inMesh {m m' : Mesh P V T} {old new} (h : Replaces m m' old new)
    (S : List VId) (hold : ∀ v, v ∈ S → ∃ p ∈ new, v ∈ list4 p) (hS : ∀ p ∈ old, ∀ v ∈ list4 p, v ∈ S)
    (v : VId) : InMesh m' v ↔ InMesh m v ∨ ∃ p ∈ new, v ∈ list4 p := by
  rw [inMesh_iff, inMesh_iff]
  constructor
  · rintro ⟨q, hq, hv⟩
    rcases (h.2 q).1 hq with ⟨h1, -⟩ | ⟨p, hp, hs⟩
    · exact .inl ⟨q, h1, hv⟩
    · exact .inr ⟨p, hp, (SameTet.mem hs v).2 hv⟩
  · rintro (⟨q, hq, hv⟩ | ⟨p, hp, hv⟩)
    · by_cases hc : ∃ p ∈ old, SameTet p q
      · obtain ⟨p, hp, hs⟩ := hc
        obtain ⟨p', hp', hv'⟩ := hold v (hS p hp v ((SameTet.mem hs v).2 hv))
        exact ⟨p', (h.2 p').2 (.inr ⟨p', hp', EvenRearr.refl _⟩), hv'⟩
      · push Not at hc
        exact ⟨q, (h.2 q).2 (.inl ⟨hq, hc⟩), hv⟩
    · exact ⟨p, (h.2 p).2 (.inr ⟨p, hp, EvenRearr.refl _⟩), hv⟩

theorem Spec.Replaces.inMesh_same {m m' : Mesh P V T} {old new} (h : Replaces m m' old new)
    (S : List VId) (h1 : ∀ v, v ∈ S → ∃ p ∈ new, v ∈ list4 p) (h2 : ∀ p ∈ old, ∀ v ∈ list4 p, v ∈ S)
    (h3 : ∀ v, v ∈ S → ∃ p ∈ old, v ∈ list4 p) (h4 : ∀ p ∈ new, ∀ v ∈ list4 p, v ∈ S)
    (v : VId) : InMesh m' v ↔ InMesh m v := by
  rw [h.inMesh S h1 h2]
  constructor
  · rintro (hv | ⟨p, hp, hv⟩)
    · exact hv
    · obtain ⟨p', hp', hv'⟩ := h3 v (h4 p hp v hv)
      exact inMesh_iff.2 ⟨p', h.1 p' hp', hv'⟩
  · exact .inl

/-! ## What a step does -/

theorem size_of_numTets {m : Mesh P V T} (hm : ConsistentT m) {n} (h : m.numTets = some n) :
    m.tets.size = n := by
  rw [Mesh.numTets, hm.stored.2.2.len_eq] at h
  simpa using h

theorem size_of_numEdges {m : Mesh P V T} (hm : ConsistentT m) {n} (h : m.numEdges = some n) :
    m.edges.size = n := by
  rw [Mesh.numEdges, hm.stored.2.1.len_eq] at h
  simpa using h

theorem Spec.FlipStep.facts {m m' : Mesh P V T} (hm : ConsistentT m) (h : FlipStep m m') :
    ∃ old new ids, FlipFacts m m' old new ids ∧
      ((∃ v, ¬ InMesh m v ∧ (∀ u, InMesh m' u ↔ InMesh m u ∨ u = v) ∧
        m'.tets.size = m.tets.size + 3 ∧ m'.edges.size = m.edges.size + 4) ∨
      ((∀ u, InMesh m' u ↔ InMesh m u) ∧
        (m'.tets.size = m.tets.size + 1 ∧ m'.edges.size = m.edges.size + 1 ∨
         m'.tets.size + 1 = m.tets.size ∧ m'.edges.size + 1 = m.edges.size ∨
         m'.tets.size = m.tets.size ∧ m'.edges.size = m.edges.size))) := by
  cases h with
  | @flip14 k v ws nT nE live exists_ new hT hE roomT roomE flip =>
    obtain ⟨t, ht⟩ := Option.isSome_iff_exists.1 live
    have hw : m.tet4 (Mesh.walkerFromTetId k) = some (t.tet 3) := Mesh.tet4_iff.2 ⟨t, ht, rfl⟩
    have := size_of_numTets hm hT
    have := size_of_numEdges hm hE
    obtain ⟨m'', i1, i2, i3, h1, -, -, F, -, -, h4, h5⟩ := flip14_sem hm (a := t.first 3) (b := t.second 3)
      (c := t.third 3) (d := t.fourth 3) hw rfl (Option.ne_none_iff_exists'.1 exists_)
      (fun x hx => new ⟨x, hx⟩) (by omega) (by omega)
    rw [flip] at h1
    obtain ⟨rfl, -⟩ := Prod.mk.inj (Option.some.inj h1)
    refine ⟨_, _, _, F, .inl ⟨v, new, ?_, h4, h5⟩⟩
    intro u
    rw [F.rep.inMesh [t.first 3, t.second 3, t.third 3, t.fourth 3] (by simp [list4])
      (by simp [list4])]
    constructor
    · rintro (h | ⟨p, hp, hu⟩)
      · exact .inl h
      · by_cases hv : u = v
        · exact .inr hv
        · left
          refine inMesh_iff.2 ⟨_, ⟨_, hw⟩, ?_⟩
          simp only [List.mem_cons, List.not_mem_nil, or_false] at hp
          rcases hp with rfl | rfl | rfl | rfl <;> simp [list4, hv] at hu <;> simp [list4, Tet.tet] <;> tauto
    · rintro (h | rfl)
      · exact .inl h
      · exact .inr ⟨_, List.mem_cons_self, by simp [list4]⟩
  | @flip23 w o d e ws nT nE adj top bottom ne no_edge hT hE roomT roomE flip =>
    have hw : ∃ a b c, m.tet4 w = some (a, b, c, d) := by
      simp only [Mesh.fourth, Option.map_eq_some_iff] at top
      obtain ⟨t, h1, h2⟩ := top
      exact ⟨_, _, _, Mesh.tet4_iff.2 ⟨t, h1, by rw [Tet.tet, h2]⟩⟩
    obtain ⟨a, b, c, hw⟩ := hw
    have := size_of_numTets hm hT
    have := size_of_numEdges hm hE
    obtain ⟨m'', i2, h1, -, -, -, -, F, -, -, -, -, h4, h5⟩ := flip23_sem hm hw adj bottom ne no_edge
      (by omega) (by omega)
    rw [flip] at h1
    obtain ⟨rfl, -⟩ := Prod.mk.inj (Option.some.inj h1)
    refine ⟨_, _, _, F, .inr ⟨?_, .inl ⟨h4, h5⟩⟩⟩
    refine F.rep.inMesh_same [a, b, c, d, e] ?_ ?_ ?_ ?_ <;> simp [list4]
  | @flip32 w o1 o2 x y c d e ws tet s1 s2 s3 third no_tri flip =>
    obtain ⟨m'', h1, -, -, -, -, -, F, -, -, -, -, h4, h5⟩ := flip32_sem hm tet s1 s2 s3 third no_tri
    rw [flip] at h1
    obtain ⟨rfl, -⟩ := Prod.mk.inj (Option.some.inj h1)
    refine ⟨_, _, _, F, .inr ⟨?_, .inr (.inl ⟨h4, h5⟩)⟩⟩
    refine F.rep.inMesh_same [x, y, c, d, e] ?_ ?_ ?_ ?_ <;> simp [list4]
  | @flip44 w a1 a2 a3 x y p q r s ws nT nE tet s1 s2 s3 s4 ne third fourth no_edge hT hE roomT roomE flip =>
    have := size_of_numTets hm hT
    have := size_of_numEdges hm hE
    obtain ⟨m'', i2, h1, -, -, F, -, -, -, -, -, -, h4, h5⟩ := flip44_sem hm tet s1 s2 s3 s4 ne third fourth
      no_edge (by omega) (by omega)
    rw [flip] at h1
    obtain ⟨rfl, -⟩ := Prod.mk.inj (Option.some.inj h1)
    refine ⟨_, _, _, F, .inr ⟨?_, .inr (.inr ⟨h4, h5⟩)⟩⟩
    refine F.rep.inMesh_same [x, y, p, q, r, s] ?_ ?_ ?_ ?_ <;> simp [list4]

/-! ## Counting -/

theorem IdMap.keys_list {α : Type} {m : IdMap α} (hm : m.WF) :
    ∃ K : Finset Nat, K.card = m.size ∧ ∀ j, j ∈ K ↔ (m.get j).isSome := by
  have : m.keys.Nodup := by
    rw [IdMapSpec.keys_eq]
    exact List.Nodup.filter _ List.nodup_range
  exact ⟨m.keys.toFinset, by
    rw [List.toFinset_card_of_nodup this, ← IdMap.size_of_keys hm m.keys this fun j => IdMap.mem_keys],
    fun j => by rw [List.mem_toFinset]; exact IdMap.mem_keys⟩

theorem set3 {a b c x y z : VId} (hab : a ≠ b) (hac : a ≠ c) (hbc : b ≠ c)
    (hxy : x ≠ y) (hxz : x ≠ z) (hyz : y ≠ z)
    (h : ({a, b, c} : Finset VId) = {x, y, z}) :
    ((x, y, z) = (a, b, c) ∨ (y, z, x) = (a, b, c) ∨ (z, x, y) = (a, b, c)) ∨
    ((x, y, z) = (b, a, c) ∨ (y, z, x) = (b, a, c) ∨ (z, x, y) = (b, a, c)) := by
  have hx : x ∈ ({a, b, c} : Finset VId) := by rw [h]; simp
  have hy : y ∈ ({a, b, c} : Finset VId) := by rw [h]; simp
  have hz : z ∈ ({a, b, c} : Finset VId) := by rw [h]; simp
  simp only [Finset.mem_insert, Finset.mem_singleton] at hx hy hz
  simp only [Prod.mk.injEq]
  rcases hx with rfl | rfl | rfl <;> rcases hy with rfl | rfl | rfl <;> rcases hz with rfl | rfl | rfl <;>
    first
      | exact absurd rfl hxy
      | exact absurd rfl hxz
      | exact absurd rfl hyz
      | simp

/-- The vertices of the `i`-th triangle of tet `k`. -/
def triOf (m : Mesh P V T) (k : TId) (i : Fin 4) : Finset VId :=
  match m.tri ⟨k, canonCode i⟩ with
  | some (a, b, c) => {a, b, c}
  | none => ∅

theorem triOf_eq {m : Mesh P V T} {w : Walker} {a b c : VId} (h : m.tri w = some (a, b, c)) :
    triOf m w.tet (face w.edge) = {a, b, c} := by
  obtain ⟨t, h1, h2⟩ := Mesh.tri_iff.1 h
  have : ∀ e : Code, e = canonCode (face e) ∨ e = nfe (canonCode (face e)) ∨ e = pfe (canonCode (face e)) := by
    decide
  have h3 : m.tri ⟨w.tet, canonCode (face w.edge)⟩ = some (t.tri (canonCode (face w.edge))) :=
    Mesh.tri_iff.2 ⟨t, h1, rfl⟩
  have h4 : t.tri (canonCode (face w.edge)) = (t.first (canonCode (face w.edge)),
    t.second (canonCode (face w.edge)), t.third (canonCode (face w.edge))) := rfl
  unfold triOf
  rw [h3, h4]
  rcases this w.edge with h5 | h5 | h5
  · rw [← h5]
    rw [Tet.tri] at h2
    simp only [Prod.mk.injEq] at h2
    rw [h2.1, h2.2.1, h2.2.2]
  · have h6 := t.tri_nfe (canonCode (face w.edge))
    rw [← h5, h2] at h6
    simp only [Prod.mk.injEq] at h6
    rw [← h6.1, ← h6.2.1, ← h6.2.2]
    ext; simp; tauto
  · have h6 := t.tri_pfe (canonCode (face w.edge))
    rw [← h5, h2] at h6
    simp only [Prod.mk.injEq] at h6
    rw [← h6.1, ← h6.2.1, ← h6.2.2]
    ext; simp; tauto

theorem ConsistentT.tri_rot {m : Mesh P V T} (hm : ConsistentT m) {w w' : Walker} {a b c x y z : VId}
    (h : m.tri w = some (a, b, c)) (h' : m.tri w' = some (x, y, z))
    (hr : (x, y, z) = (a, b, c) ∨ (y, z, x) = (a, b, c) ∨ (z, x, y) = (a, b, c)) :
    w'.tet = w.tet ∧ face w'.edge = face w.edge := by
  obtain ⟨t, h1, h2⟩ := Mesh.tri_iff.1 h'
  simp only [Tet.tri, Prod.mk.injEq] at h2
  have fn : ∀ e, face (nfe e) = face e := by decide
  have fp : ∀ e, face (pfe e) = face e := by decide
  rcases hr with hr | hr | hr
  · rw [hr] at h'
    rw [hm.tri_eq h h']
    exact ⟨rfl, rfl⟩
  · have : m.tri w'.nfe = some (a, b, c) := by
      rw [← hr]
      exact Mesh.tri_iff.2 ⟨t, h1, (t.tri_nfe _).trans (by rw [h2.1, h2.2.1, h2.2.2])⟩
    rw [hm.tri_eq h this]
    exact ⟨rfl, (fn _).symm⟩
  · have : m.tri w'.pfe = some (a, b, c) := by
      rw [← hr]
      exact Mesh.tri_iff.2 ⟨t, h1, (t.tri_pfe _).trans (by rw [h2.1, h2.2.1, h2.2.2])⟩
    rw [hm.tri_eq h this]
    exact ⟨rfl, (fp _).symm⟩

/-- A consistent mesh has twice as many triangles as tets. -/
theorem ConsistentT.triangles {m : Mesh P V T} (hm : ConsistentT m) :
    Spec.triangles m = 2 * m.tets.size := by
  classical
  obtain ⟨K, hK, hmem⟩ := IdMap.keys_list hm.stored.2.2
  let A : Finset (TId × Fin 4) := K ×ˢ Finset.univ
  let f : TId × Fin 4 → Finset VId := fun x => triOf m x.1 x.2
  have live : ∀ x ∈ A, ∃ a b c, m.tri ⟨x.1, canonCode x.2⟩ = some (a, b, c) ∧ a ≠ b ∧ a ≠ c ∧ b ≠ c ∧
      f x = {a, b, c} := by
    intro x hx
    obtain ⟨t, ht⟩ := Option.isSome_iff_exists.1 ((hmem x.1).1 (Finset.mem_product.1 hx).1)
    have h1 : m.tet4 ⟨x.1, canonCode x.2⟩ = some (t.first (canonCode x.2), t.second (canonCode x.2),
      t.third (canonCode x.2), t.fourth (canonCode x.2)) := Mesh.tet4_iff.2 ⟨t, ht, rfl⟩
    obtain ⟨h2, h3, -, h4, -⟩ := hm.ne4 h1
    have h5 := (tet4_parts h1).2.2.2
    refine ⟨_, _, _, h5, h2, h3, h4, ?_⟩
    have := triOf_eq h5
    simp only [face_canonCode] at this
    exact this
  have hset : {s : Finset VId | ∃ a b c, HasTri m (a, b, c) ∧ s = {a, b, c}} = ↑(A.image f) := by
    ext s
    simp only [Set.mem_setOf_eq, Finset.coe_image, Set.mem_image, Finset.mem_coe]
    constructor
    · rintro ⟨a, b, c, ⟨w, hw⟩, rfl⟩
      obtain ⟨t, ht, -⟩ := Mesh.tri_iff.1 hw
      exact ⟨(w.tet, face w.edge), Finset.mem_product.2 ⟨(hmem _).2 (Option.isSome_iff_exists.2 ⟨t, ht⟩),
        Finset.mem_univ _⟩, triOf_eq hw⟩
    · rintro ⟨x, hx, rfl⟩
      obtain ⟨a, b, c, h1, -, -, -, h2⟩ := live x hx
      exact ⟨a, b, c, ⟨_, h1⟩, h2⟩
  have fiber : ∀ b ∈ A.image f, (A.filter fun x => f x = b).card = 2 := by
    intro s hs
    obtain ⟨x, hx, rfl⟩ := Finset.mem_image.1 hs
    obtain ⟨a, b, c, h1, ab, ac, bc, hfx⟩ := live x hx
    obtain ⟨w, hw1, hw2⟩ := hm.adj_tri h1
    obtain ⟨t, ht, -⟩ := Mesh.tri_iff.1 hw2
    have hne : w.tet ≠ x.1 := by
      obtain ⟨u, hu, -⟩ := Mesh.tri_iff.1 h1
      simp only [Mesh.toAdj, hu, Option.map_some, Option.some.injEq] at hw1
      rw [← hw1]
      exact hm.adj.no_self hm.distinct hu _
    have heq : (A.filter fun y => f y = f x) = {x, (w.tet, face w.edge)} := by
      ext y
      simp only [Finset.mem_filter, Finset.mem_insert, Finset.mem_singleton]
      constructor
      · rintro ⟨hy, hfy⟩
        obtain ⟨p, q, r, k1, pq, pr, qr, hfy'⟩ := live y hy
        rw [hfx, hfy'] at hfy
        rcases set3 ab ac bc pq pr qr hfy.symm with hr | hr
        · obtain ⟨e1, e2⟩ := hm.tri_rot h1 k1 hr
          simp only [face_canonCode] at e1 e2
          exact .inl (Prod.ext e1 e2)
        · obtain ⟨e1, e2⟩ := hm.tri_rot hw2 k1 hr
          simp only [face_canonCode] at e1 e2
          exact .inr (Prod.ext e1 e2)
      · rintro (rfl | rfl)
        · exact ⟨hx, rfl⟩
        · refine ⟨Finset.mem_product.2 ⟨(hmem _).2 (Option.isSome_iff_exists.2 ⟨t, ht⟩), Finset.mem_univ _⟩, ?_⟩
          rw [hfx]
          refine (triOf_eq hw2).trans ?_
          ext; simp; tauto
    rw [heq, Finset.card_pair]
    rintro rfl
    exact hne rfl
  have h1 := Finset.card_eq_sum_card_image f A
  rw [Finset.sum_congr rfl fiber, Finset.sum_const, Finset.card_product, Finset.card_univ, Fintype.card_fin, hK,
    smul_eq_mul] at h1
  unfold Spec.triangles
  rw [hset, Set.ncard_coe_finset]
  omega

theorem ConsistentT.finite_vertices {m : Mesh P V T} (hm : ConsistentT m) : {v | InMesh m v}.Finite := by
  classical
  obtain ⟨K, -, hmem⟩ := IdMap.keys_list hm.stored.2.2
  refine Set.Finite.subset ((K ×ˢ (Finset.univ : Finset (Fin 4))).image
    (fun x => match m.tets.get x.1 with | some t => t.vertices x.2 | none => 0)).finite_toSet ?_
  rintro v ⟨w, hw⟩
  simp only [Mesh.first, Option.map_eq_some_iff] at hw
  obtain ⟨t, h1, h2⟩ := hw
  simp only [Finset.coe_image, Set.mem_image, Finset.mem_coe]
  exact ⟨(w.tet, firstIdx w.edge), Finset.mem_product.2 ⟨(hmem _).2 (Option.isSome_iff_exists.2 ⟨t, h1⟩),
    Finset.mem_univ _⟩, by simp only [h1]; exact h2⟩

end Tet
