import Verif.Model.FlipIn
import Verif.Spec.FlipIn
import Verif.Proofs.CavityMain

/-!
# The surface of a cavity
-/

namespace Tet
open Spec
variable {P V T : Type}

/-- The situation at the beginning. -/
structure FI (m : Mesh P V T) (v : VId) (B : List Walker) (E : List TId) : Prop where
  cons : ConsistentT m
  tidy : Tidy m
  fill : Fillable m E
  nodup : E.Nodup
  bdry : Boundary m E B
  vert : ∃ x, m.vertices.get v = some x ∧ x.tet.tet = idMax

section
variable {m : Mesh P V T} {v : VId} {B : List Walker} {E : List TId}

theorem fid_nfe (w : Walker) : fid w.nfe = fid w := by simp [fid, Walker.nfe, face_nfe]
theorem fid_pfe (w : Walker) : fid w.pfe = fid w := by simp [fid, Walker.pfe, face_pfe]

theorem Walker.nfe_nfe (w : Walker) : w.nfe.nfe = w.pfe := by simp [Walker.nfe, Walker.pfe, _root_.Tet.nfe_nfe]
theorem Walker.pfe_nfe (w : Walker) : w.nfe.pfe = w := by simp [Walker.nfe, Walker.pfe, _root_.Tet.pfe_nfe]
theorem Walker.nfe_pfe (w : Walker) : w.pfe.nfe = w := by simp [Walker.nfe, Walker.pfe, _root_.Tet.nfe_pfe]

theorem Spec.Outer.congr {w w' : Walker} (h : Outer m E w) (hf : fid w' = fid w) : Outer m E w' := by
  obtain ⟨h1, x, h2, h3⟩ := h
  rcases (sameTri_iff w w').2 hf with rfl | rfl | rfl
  · exact ⟨h1, x, h2, h3⟩
  · exact ⟨h1, x.pfe, by rw [Mesh.toAdj_nfe, h2]; rfl, h3⟩
  · exact ⟨h1, x.nfe, by rw [Mesh.toAdj_pfe, h2]; rfl, h3⟩

theorem FI.outer_iff (h : FI m v B E) (w : Walker) : Outer m E w ↔ fid w ∈ B.map fid := by
  unfold Outer
  rw [← h.bdry.exact]
  simp only [sameTri_iff, List.mem_map]
  exact exists_congr fun b => and_congr_right fun _ => eq_comm

theorem FI.outer_mem (h : FI m v B E) {b : Walker} (hb : b ∈ B) : Outer m E b :=
  (h.outer_iff b).2 (List.mem_map_of_mem hb)

theorem FI.base (h : FI m v B E) {w : Walker} (hw : Outer m E w) : ∃ b ∈ B, fid w = fid b := by
  obtain ⟨b, hb, he⟩ := List.mem_map.1 ((h.outer_iff w).1 hw)
  exact ⟨b, hb, he.symm⟩

theorem FI.fids (h : FI m v B E) : (B.map fid).Nodup := (h.bdry.fids h.fill.live).1

/-- The tet of an outer walker. -/
theorem FI.get (h : FI m v B E) {w : Walker} (hw : Outer m E w) : ∃ t, m.tets.get w.tet = some t :=
  Option.isSome_iff_exists.1 (h.fill.live _ hw.1)

theorem outer_adj {t : Tet T} {w : Walker} (hw : Outer m E w) (ht : m.tets.get w.tet = some t) :
    (t.adj w.edge).tet ∉ E := by
  obtain ⟨-, x, h1, h2⟩ := hw
  rw [Mesh.toAdj_eq ht] at h1
  cases h1
  exact h2

theorem outer_of_adj {t : Tet T} {w : Walker} (hE : w.tet ∈ E) (ht : m.tets.get w.tet = some t)
    (h : (t.adj w.edge).tet ∉ E) : Outer m E w := ⟨hE, _, Mesh.toAdj_eq ht, h⟩

theorem edge_twin' (w : Walker) (a b : VId) (h : m.edge w = some (a, b)) : m.edge w.twin = some (b, a) := by
  simp only [Mesh.edge, Option.map_eq_some_iff] at h ⊢
  obtain ⟨t, ht, he⟩ := h
  exact ⟨t, ht, by rw [Walker.twin, Surgery.edge_twin, he]⟩

/-- Turning around an edge keeps it. -/
theorem ringT_edge (hm : ConsistentT m) {x y : Walker} (h : RingT m.tets.get x y) {p} (hx : m.edge x = some p) :
    m.edge y = some p := by
  obtain ⟨a, b⟩ := p
  have := ring_star hm hx ((sameRing_iff m x y).2 h)
  exact this.2

/-- Every edge of an outer triangle has an outer triangle on the other side. -/
theorem outer_mate (hm : ConsistentT m) (hlive : ∀ k ∈ E, (m.tets.get k).isSome) {w : Walker} (hw : Outer m E w) {a b : VId} (he : m.edge w = some (a, b)) :
    ∃ w', Outer m E w' ∧ m.edge w' = some (b, a) := by
  by_contra hno
  have hstep : ∀ x : Walker, x.tet ∈ E → m.edge x = some (a, b) →
      ∃ y, m.ringStep x = some y ∧ y.tet ∈ E ∧ m.edge y = some (a, b) := by
    intro x hxE hx
    obtain ⟨t, ht⟩ := Option.isSome_iff_exists.1 (hlive _ hxE)
    have hr : m.toAdj x.twin = some (t.adj (twin x.edge)) := Mesh.toAdj_eq (w := x.twin) ht
    refine ⟨_, hr, ?_, ?_⟩
    · by_contra hc
      exact hno ⟨x.twin, ⟨hxE, _, hr, hc⟩, edge_twin' x a b hx⟩
    · exact ringT_edge hm (.step (.refl x) ht) hx
  obtain ⟨l, h1, -, h3⟩ := exists_runsThrough (next := m.ringStep) (S := {x | x.tet ∈ E ∧ m.edge x = some (a, b)})
    ((live_finite m).subset fun x hx => hlive _ hx.1)
    (fun x hx => by
      obtain ⟨y, e1, e2, e3⟩ := hstep x hx.1 hx.2
      exact ⟨y, ⟨e2, e3⟩, e1⟩)
    (by
      intro x hx y hy hxy
      obtain ⟨z, e1, -⟩ := hstep x hx.1 hx.2
      rw [e1] at hxy
      have b1 := hm.adj_back e1
      have b2 := hm.adj_back hxy.symm
      rw [b1] at b2
      have := Option.some.inj b2
      have e : x.twin.twin = y.twin.twin := by rw [this]
      have tt : ∀ c : Code, twin (twin c) = c := by decide
      cases x; cases y; simpa [Walker.twin, tt] using e) (a := w) ⟨hw.1, he⟩
  obtain ⟨x, hx, hxw⟩ := h1.pred (y := w) (by simp)
  have hxE : x.tet ∈ E := by
    rcases List.mem_cons.1 hx with rfl | hx
    · exact hw.1
    · exact (h3 x hx).1
  obtain ⟨-, w', e1, e2⟩ := hw
  have := hm.adj_back hxw
  rw [e1] at this
  cases this
  exact e2 hxE

theorem FI.mate (h : FI m v B E) {w : Walker} (hw : Outer m E w) {a b : VId} (he : m.edge w = some (a, b)) :
    ∃ w', Outer m E w' ∧ m.edge w' = some (b, a) := outer_mate h.cons h.fill.live hw he

/-- The partner of every outer walker. -/
theorem FI.exists_mate (h : FI m v B E) : ∃ mate : Walker → Walker, ∀ w, Outer m E w → Outer m E (mate w) ∧
    (∀ a b, m.edge w = some (a, b) → m.edge (mate w) = some (b, a)) ∧ mate (mate w) = w := by
  have : ∀ w, ∃ w', Outer m E w → Outer m E w' ∧ (∀ a b, m.edge w = some (a, b) → m.edge w' = some (b, a)) := by
    intro w
    by_cases hw : Outer m E w
    · obtain ⟨t, ht⟩ := h.get hw
      have he : m.edge w = some (t.edge w.edge) := by simp [Mesh.edge, ht]
      obtain ⟨w', h1, h2⟩ := h.mate hw (a := (t.edge w.edge).1) (b := (t.edge w.edge).2) he
      refine ⟨w', fun _ => ⟨h1, fun a b hab => ?_⟩⟩
      rw [he] at hab
      cases hab
      exact h2
    · exact ⟨w, fun h' => absurd h' hw⟩
  choose mate hmate using this
  refine ⟨mate, fun w hw => ⟨(hmate w hw).1, (hmate w hw).2, ?_⟩⟩
  obtain ⟨h1, h2⟩ := hmate w hw
  obtain ⟨h3, h4⟩ := hmate _ h1
  obtain ⟨t, ht⟩ := h.get hw
  have he : m.edge w = some ((t.edge w.edge).1, (t.edge w.edge).2) := by simp [Mesh.edge, ht]
  exact h.fill.edges _ _ h3 hw (by rw [h4 _ _ (h2 _ _ he), he])

/-- An edge of a tet inside and of a tet outside is on the surface. -/
theorem FI.surface_edge (h : FI m v B E) {x y : Walker} (hx : x.tet ∈ E) (hy : y.tet ∉ E) {a b : VId}
    (ex : m.edge x = some (a, b)) (ey : m.edge y = some (a, b)) : ∃ w, Outer m E w ∧ m.edge w = some (a, b) := by
  have hm := h.cons
  obtain ⟨t, ht, hte⟩ := Option.map_eq_some_iff.1 ex
  obtain ⟨t', ht', hte'⟩ := Option.map_eq_some_iff.1 ey
  have hr := hm.ring x.tet t x.edge y.tet t' y.edge ht ht' (by rw [hte, hte'])
  have key : ∀ z, RingT m.tets.get x z → m.edge z = some (a, b) ∧
      (z.tet ∈ E ∨ ∃ w, Outer m E w ∧ m.edge w = some (a, b)) := by
    intro z hz
    refine ⟨ringT_edge hm hz ex, ?_⟩
    induction hz with
    | refl => exact .inl hx
    | @step b' u h1 h2 ih =>
      rcases ih with ih | ih
      · by_cases hc : (u.adj (twin b'.edge)).tet ∈ E
        · exact .inl hc
        · right
          have ho : Outer m E b'.twin := outer_of_adj (w := b'.twin) ih h2 hc
          obtain ⟨w', h3, h4⟩ := h.mate ho (edge_twin' b' a b (ringT_edge hm h1 ex))
          exact ⟨w', h3, h4⟩
      · exact .inr ih
    | @back c u h1 h2 ih =>
      rcases ih with ih | ih
      · by_cases hc : c.tet ∈ E
        · exact .inl hc
        · right
          have hr : m.toAdj c.twin = some (u.adj (twin c.edge)) := Mesh.toAdj_eq (w := c.twin) h2
          exact ⟨_, ⟨ih, c.twin, hm.adj_back hr, hc⟩, ringT_edge hm h1 ex⟩
      · exact .inr ih
  rcases (key y hr).2 with h' | h'
  · exact absurd h' hy
  · exact h'

/-- The new vertex is not in any tet. -/
theorem FI.new_vertex (h : FI m v B E) {k t} (ht : m.tets.get k = some t) (i : Fin 4) : t.vertices i ≠ v := by
  obtain ⟨x, hx, hx'⟩ := h.vert
  intro hi
  rcases h.cons.vlive k t i ht with h1 | ⟨y, t', h1, h2, -⟩
  · rw [hi] at h1
    have := h.cons.stored.1.lt_max hx
    rw [h1, GHOST] at this
    exact absurd this (Nat.lt_irrefl _)
  · rw [hi, hx] at h1
    cases h1
    rw [hx', h.cons.stored.2.2.get_max] at h2
    cases h2

theorem FI.v_ne_ghost (h : FI m v B E) : v ≠ GHOST := by
  obtain ⟨x, hx, -⟩ := h.vert
  intro hv
  have := h.cons.stored.1.lt_max hx
  rw [hv, GHOST] at this
  exact absurd this (Nat.lt_irrefl _)

theorem sorted2_pair_iff (a b c d : VId) : sorted2 (a, b) = sorted2 (c, d) ↔ (a, b) = (c, d) ∨ (a, b) = (d, c) := by
  rw [← min_max_sorted2, ← min_max_sorted2]
  simp only [Prod.mk.injEq]
  omega

theorem FI.eid_iff (h : FI m v B E) {mate : Walker → Walker} (hmate : ∀ w, Outer m E w → Outer m E (mate w) ∧
    (∀ a b, m.edge w = some (a, b) → m.edge (mate w) = some (b, a)) ∧ mate (mate w) = w) {w w' : Walker}
    (hw : Outer m E w) (hw' : Outer m E w') : m.undirEdge w' = m.undirEdge w ↔ w' = w ∨ w' = mate w := by
  have hm := h.cons
  obtain ⟨t, ht⟩ := h.get hw
  obtain ⟨t', ht'⟩ := h.get hw'
  obtain ⟨ue, h1, h2⟩ := hm.eptr _ t w.edge ht
  obtain ⟨ue', h3, h4⟩ := hm.eptr _ t' w'.edge ht'
  have e1 : m.edge w = some (t.edge w.edge) := by simp [Mesh.edge, ht]
  have e2 : m.edge w' = some (t'.edge w'.edge) := by simp [Mesh.edge, ht']
  have hswap := (hmate w hw).2.1 (t.edge w.edge).1 (t.edge w.edge).2 e1
  rw [Mesh.undirEdge_eq ht, Mesh.undirEdge_eq ht', Option.some.injEq]
  constructor
  · intro he
    rw [he, h1] at h3
    cases h3
    rw [h2] at h4
    rcases (sorted2_pair_iff _ _ _ _).1 h4 with h5 | h5
    · exact .inl (h.fill.edges _ _ hw' hw (by rw [e1, e2]; exact congrArg some h5.symm))
    · refine .inr (h.fill.edges _ _ hw' (hmate w hw).1 ?_)
      rw [e2, hswap]
      simp only [Prod.mk.injEq] at h5
      exact congrArg some (Prod.ext h5.2.symm h5.1.symm)
  · rintro (rfl | rfl)
    · rw [ht] at ht'
      cases ht'
      rfl
    · rw [hswap] at e2
      refine hm.eunique _ _ _ _ h3 h1 ?_
      rw [h4, h2, ← Option.some.inj e2]
      exact (sorted2_pair_iff _ _ _ _).2 (.inr rfl)

theorem FI.mate_ne (h : FI m v B E) {mate : Walker → Walker} (hmate : ∀ w, Outer m E w → Outer m E (mate w) ∧
    (∀ a b, m.edge w = some (a, b) → m.edge (mate w) = some (b, a)) ∧ mate (mate w) = w) {w : Walker}
    (hw : Outer m E w) : fid (mate w) ≠ fid w := by
  intro hf
  obtain ⟨t, ht⟩ := h.get hw
  have e1 : m.edge w = some (t.edge w.edge) := by simp [Mesh.edge, ht]
  have hswap := (hmate w hw).2.1 (t.edge w.edge).1 (t.edge w.edge).2 e1
  have inj := h.cons.distinct _ t ht
  have key : ∀ e e', e' = e ∨ e' = _root_.Tet.nfe e ∨ e' = _root_.Tet.pfe e →
      ¬ (firstIdx e' = secondIdx e ∧ secondIdx e' = firstIdx e) := by decide
  have hk : (mate w).tet = w.tet := congrArg Prod.fst hf
  have he := (sameTri_iff w (mate w)).2 hf
  have hc : (mate w).edge = w.edge ∨ (mate w).edge = _root_.Tet.nfe w.edge ∨ (mate w).edge = _root_.Tet.pfe w.edge := by
    rcases he with h' | h' | h' <;> rw [h'] <;> simp [Walker.nfe, Walker.pfe]
  rw [Mesh.edge, hk, ht, Option.map_some, Option.some.injEq, Tet.edge, Tet.edge, Prod.mk.injEq] at hswap
  exact key _ _ hc ⟨inj hswap.1, inj hswap.2⟩

end
end Tet
