import Verif.Proofs.CapShape

/-!
# `cap_transform` and `shell_transform`
-/

namespace Tet
open Spec
variable {P V T : Type} {m g x : Mesh P V T} {vt vb : VId} {F : List (VId × VId)} {em : Mesh.EdgeMap} {gone : Prop}

theorem locked_rot (hm : Consistent m) {r s : V3} (h : Rotation r s) (hl : LockedTri m r) : LockedTri m s := by
  have ro : ∀ {a b c}, LockedTri m (a, b, c) → LockedTri m (b, c, a) := fun h => (hm.toT.lockedTri_swap h).2
  obtain ⟨a, b, c⟩ := r
  rcases h with rfl | rfl | rfl
  · exact hl
  · exact ro hl
  · exact ro (ro hl)

theorem locked_either (hm : Consistent m) {r s : V3} (h : Either r s) (hl : LockedTri m r) : LockedTri m s := by
  obtain ⟨a, b, c⟩ := r
  rcases h with h | h
  · exact locked_rot hm h (hm.toT.lockedTri_swap hl).1
  · exact locked_rot hm h hl

/-- A triangle on a tet of the fan. -/
theorem fan_tri {e : VId × VId} {p q r d : VId} (h : SameTet (fanTet vt vb e) (q, p, r, d)) :
    Rotation (vt, e.2, e.1) (p, q, r) ∨ Either (e.1, e.2, vb) (p, q, r) ∨ Rotation (vt, vb, e.2) (p, q, r) ∨ Rotation (vb, vt, e.1) (p, q, r) := by
  rw [← mem_twelve] at h
  simp only [twelve, fanTet, List.mem_cons, List.not_mem_nil, or_false, Prod.mk.injEq] at h
  rcases h with ⟨rfl, rfl, rfl, rfl⟩ | ⟨rfl, rfl, rfl, rfl⟩ | ⟨rfl, rfl, rfl, rfl⟩ | ⟨rfl, rfl, rfl, rfl⟩ | ⟨rfl, rfl, rfl, rfl⟩ | ⟨rfl, rfl, rfl, rfl⟩ |
    ⟨rfl, rfl, rfl, rfl⟩ | ⟨rfl, rfl, rfl, rfl⟩ | ⟨rfl, rfl, rfl, rfl⟩ | ⟨rfl, rfl, rfl, rfl⟩ | ⟨rfl, rfl, rfl, rfl⟩ | ⟨rfl, rfl, rfl, rfl⟩ <;>
    simp [Rotation, Either]

theorem loose_of (hm : Consistent m) (bot : ∀ e ∈ F, ¬ LockedTri m (e.1, e.2, vb))
    (next : ∀ e ∈ F, (∃ e' ∈ F, e'.1 = e.2) ∨ ¬ LockedTri m (e.2, vt, vb))
    (prev : ∀ e ∈ F, (∃ e' ∈ F, e'.2 = e.1) ∨ ¬ LockedTri m (e.1, vt, vb)) : Loose m vt vb F := by
  rintro p q r hl ⟨e, he, d, hs⟩
  rcases fan_tri hs with h | h | h | h
  · exact .inr ⟨e, he, h⟩
  · exact absurd (locked_either hm (either_symm h) hl) (bot e he)
  · rcases next e he with ⟨e', h1, h2⟩ | h1
    · refine .inl ⟨e', h1, e'.2, ?_⟩
      rw [← h2] at h
      rcases h with h | h | h <;> · simp only [Prod.mk.injEq] at h; obtain ⟨rfl, rfl, rfl⟩ := h; exact mem_twelve.1 (by simp [twelve, fanTet])
    · exact absurd (locked_rot hm (show Rotation (vt, vb, e.2) (e.2, vt, vb) from .inr (.inr rfl)) (locked_rot hm (rot_symm h) hl)) h1
  · rcases prev e he with ⟨e', h1, h2⟩ | h1
    · refine .inl ⟨e', h1, e'.1, ?_⟩
      rw [← h2] at h
      rcases h with h | h | h <;> · simp only [Prod.mk.injEq] at h; obtain ⟨rfl, rfl, rfl⟩ := h; exact mem_twelve.1 (by simp [twelve, fanTet])
    · exact absurd (locked_either hm (show Either (vb, vt, e.1) (e.1, vt, vb) from .inl (.inr (.inr rfl))) (locked_rot hm (rot_symm h) hl)) h1

/-- The converse of `loose_of`: what `Loose` says about the triangles under the fan and at its ends. -/
theorem IsFan.of_loose (hm : Consistent m) (hf : IsFan m vt vb F) (hU : Loose m vt vb F) {e : VId × VId} (he : e ∈ F) :
    ¬ LockedTri m (e.1, e.2, vb) ∧ ((∀ e' ∈ F, e'.1 ≠ e.2) → ¬ LockedTri m (e.2, vt, vb)) ∧ ((∀ e' ∈ F, e'.2 ≠ e.1) → ¬ LockedTri m (e.1, vt, vb)) := by
  obtain ⟨n1, n2, n3, n4, n5⟩ := hf.off e he
  refine ⟨fun h => ?_, fun hn h => ?_, fun hn h => ?_⟩
  · rcases hU _ _ _ h ⟨e, he, vt, mem_twelve.1 (by simp [twelve, fanTet])⟩ with ⟨e', he', d, hs⟩ | ⟨e', he', hro⟩
    · exact hf.bot hm he he' d hs
    · have := (rotation_mem hro vt).2 (by simp [list3])
      simp only [list3, List.mem_cons, List.not_mem_nil, or_false] at this
      rcases this with h | h | h
      exacts [n1 h.symm, n3 h.symm, hf.vv h]
  · rcases hU _ _ _ (locked_rot hm (show Rotation (e.2, vt, vb) (vt, vb, e.2) from .inr (.inl rfl)) h)
      ⟨e, he, e.1, mem_twelve.1 (by simp [twelve, fanTet])⟩ with ⟨e', he', d, hs⟩ | ⟨e', he', hro⟩
    · obtain ⟨k1, k2, k3, k4, k5⟩ := hf.off e' he'
      have h1 := mem_twelve.2 hs
      simp only [twelve, fanTet, List.mem_cons, Prod.mk.injEq, List.not_mem_nil, or_false] at h1
      have h2 := hn e' he'
      have h3 := hf.vv
      rcases h1 with h1 | h1 | h1 | h1 | h1 | h1 | h1 | h1 | h1 | h1 | h1 | h1 <;> obtain ⟨a1, a2, a3, a4⟩ := h1 <;>
        first | exact h2 a3.symm | exact h3 a1 | exact k1 a1.symm | exact k3 a1.symm | exact k2 a2.symm | exact k4 a2.symm
    · have := (rotation_mem hro vb).1 (by simp [list3])
      obtain ⟨k1, k2, k3, k4, k5⟩ := hf.off e' he'
      simp only [list3, List.mem_cons, List.not_mem_nil, or_false] at this
      rcases this with h | h | h
      exacts [hf.vv h.symm, k4 h.symm, k2 h.symm]
  · rcases hU _ _ _ (locked_either hm (either_symm (show Either (vb, vt, e.1) (e.1, vt, vb) from .inl (.inr (.inr rfl)))) h)
      ⟨e, he, e.2, mem_twelve.1 (by simp [twelve, fanTet])⟩ with ⟨e', he', d, hs⟩ | ⟨e', he', hro⟩
    · obtain ⟨k1, k2, k3, k4, k5⟩ := hf.off e' he'
      have h1 := mem_twelve.2 hs
      simp only [twelve, fanTet, List.mem_cons, Prod.mk.injEq, List.not_mem_nil, or_false] at h1
      have h2 := hn e' he'
      have h3 := hf.vv
      rcases h1 with h1 | h1 | h1 | h1 | h1 | h1 | h1 | h1 | h1 | h1 | h1 | h1 <;> obtain ⟨a1, a2, a3, a4⟩ := h1 <;>
        first | exact h2 a3.symm | exact h3 a2 | exact k1 a2.symm | exact k3 a2.symm | exact k2 a1.symm | exact k4 a1.symm
    · have := (rotation_mem hro vb).1 (by simp [list3])
      obtain ⟨k1, k2, k3, k4, k5⟩ := hf.off e' he'
      simp only [list3, List.mem_cons, List.not_mem_nil, or_false] at this
      rcases this with h | h | h
      exacts [hf.vv h.symm, k4 h.symm, k2 h.symm]

theorem side_of_tri (hm : Consistent m) {r : V3} (h : HasTri m r) {e : VId × VId} (he : e ∈ triSides [r]) (hne : e.1 ≠ e.2) : HasEdge m e.1 e.2 := by
  obtain ⟨a, b, c⟩ := r
  obtain ⟨d, hd⟩ := hasTri_iff.1 h
  obtain ⟨r', h1, h2, h3⟩ := triSides_corner he
  rw [List.mem_singleton] at h1
  subst h1
  refine tet_mem_edge hm hd ?_ ?_ hne
  · simp only [list3, list4, List.mem_cons, List.not_mem_nil, or_false] at h2 ⊢
    tauto
  · simp only [list3, list4, List.mem_cons, List.not_mem_nil, or_false] at h3 ⊢
    tauto

/-- Two corners of a triangle are the ends of one of its sides. -/
theorem side_of_pair {r : V3} {u v : VId} (hu : u ∈ list3 r) (hv : v ∈ list3 r) (h : u ≠ v) : (u, v) ∈ triSides [r] ∨ (v, u) ∈ triSides [r] := by
  obtain ⟨a, b, c⟩ := r
  simp only [list3, List.mem_cons, List.not_mem_nil, or_false] at hu hv
  rcases hu with rfl | rfl | rfl <;> rcases hv with rfl | rfl | rfl <;> first | exact absurd rfl h | simp [triSides]

/-- The pairs of vertices of the new tets at the triangles. -/
theorem cone_pairs {tris : List V3} (hcor : ∀ r ∈ tris, ∀ v ∈ list3 r, ∃ e ∈ F, v = e.1 ∨ v = e.2)
    (hside : ∀ e ∈ triSides tris, e ∈ F ∨ ¬ HasEdge m e.1 e.2) :
    ∀ q ∈ coneTets vt vb tris, ∀ u ∈ list4 q, ∀ v ∈ list4 q, u ≠ v →
      (∃ e ∈ F, u ∈ list4 (fanTet vt vb e) ∧ v ∈ list4 (fanTet vt vb e)) ∨ ¬ HasEdge m u v := by
  intro q hq u hu v hv huv
  obtain ⟨r, hr, h1⟩ := mem_cones.1 hq
  obtain ⟨y, hy, h2⟩ := cone_mem h1
  have hy' : ∀ e, y ∈ list4 (fanTet vt vb e) := by
    intro e
    rcases hy with rfl | rfl <;> simp [list4, fanTet]
  have in1 : ∀ {e : VId × VId} {v}, (v = e.1 ∨ v = e.2) → v ∈ list4 (fanTet vt vb e) := by
    rintro e v (rfl | rfl) <;> simp [list4, fanTet]
  rcases (h2 u).1 hu with hu | rfl
  · rcases (h2 v).1 hv with hv | rfl
    · rcases side_of_pair hu hv huv with h | h
      · rcases hside _ (mem_sides.2 ⟨r, hr, h⟩) with h3 | h3
        · exact .inl ⟨_, h3, in1 (.inl rfl), in1 (.inr rfl)⟩
        · exact .inr h3
      · rcases hside _ (mem_sides.2 ⟨r, hr, h⟩) with h3 | h3
        · exact .inl ⟨_, h3, in1 (.inr rfl), in1 (.inl rfl)⟩
        · exact .inr fun h4 => h3 (hasEdge_swap h4)
    · obtain ⟨e, he, h3⟩ := hcor r hr u hu
      exact .inl ⟨e, he, in1 h3, hy' e⟩
  · rcases (h2 v).1 hv with hv | rfl
    · obtain ⟨e, he, h3⟩ := hcor r hr v hv
      exact .inl ⟨e, he, hy' e, in1 h3⟩
    · exact absurd rfl huv

theorem Remade.transformed {news : List V4} {tris : List V3} {off : List VId} (h : Remade m x vt vb F gone news tris)
    (hoff : ∀ v, v ∈ off ↔ (∃ e ∈ F, v = e.1 ∨ v = e.2) ∨ gone ∧ v = vb) :
    Transformed m x (fanTets vt vb F) news tris vt off := by
  refine ⟨h.replaces, h.kept, fun v => ?_, h.center, h.tracked, h.locked, fun a b => ?_⟩
  · have := congrArg (Option.map fun y : Vertex P V => (y.flags, y.position, y.value)) (h.points v)
    rw [Option.map_map, Option.map_map] at this
    exact this
  · have key : ∀ {m : Mesh P V T}, LockedEdge m a b ↔ KeyLocked m (sorted2 (a, b)) := by
      intro m
      simp only [LockedEdge, KeyLocked, min_max_sorted2]
    rw [key, key, h.elocked]
    refine or_congr (and_congr_right fun _ => ?_) ?_
    · constructor
      · intro h1 v hv
        have : ¬ ((a, b) = (vt, v) ∨ (a, b) = (v, vt)) := by
          intro h2
          have h3 : sorted2 (a, b) = sorted2 (vt, v) := by
            rcases h2 with h2 | h2
            · rw [h2]
            · rw [h2, sorted2_swap]
          refine h1 ?_
          rcases (hoff v).1 hv with ⟨e, he, h4 | h4⟩ | ⟨h4, h5⟩
          · exact .inl ⟨e, he, .inr (by rw [h3, h4])⟩
          · exact .inl ⟨e, he, .inl (by rw [h3, h4, sorted2_swap])⟩
          · exact .inr ⟨h4, by rw [h3, h5]⟩
        exact not_or.1 this
      · intro h1 h2
        have : ∃ v ∈ off, sorted2 (a, b) = sorted2 (vt, v) := by
          rcases h2 with ⟨e, he, h4 | h4⟩ | ⟨h4, h5⟩
          · exact ⟨e.2, (hoff _).2 (.inl ⟨e, he, .inr rfl⟩), by rw [h4, sorted2_swap]⟩
          · exact ⟨e.1, (hoff _).2 (.inl ⟨e, he, .inl rfl⟩), h4⟩
          · exact ⟨vb, (hoff _).2 (.inr ⟨h4, rfl⟩), h5⟩
        obtain ⟨v, hv, h3⟩ := this
        rcases (sorted2_eq_iff _ _).1 h3.symm with h4 | h4
        · exact (h1 v hv).1 h4
        · exact (h1 v hv).2 h4
    · rw [List.mem_map]
      constructor
      · rintro ⟨e, he, h1⟩
        rcases (sorted2_eq_iff _ _).1 h1 with h2 | h2
        · exact .inl (h2 ▸ he)
        · refine .inr ?_
          have : e = (b, a) := by
            have := congrArg Prod.swap h2
            simpa using this.symm
          exact this ▸ he
      · rintro (h1 | h1)
        · exact ⟨_, h1, rfl⟩
        · exact ⟨_, h1, sorted2_swap a b⟩


theorem live_of (hm : Consistent m) {q : V4} (h : HasTet m q) {v : VId} (hv : v ∈ list4 q) (hg : v ≠ GHOST) : ∃ b, m.vertices.get v = some b := by
  obtain ⟨w, hw⟩ := h
  obtain ⟨t, h1, rfl⟩ := Mesh.tet4_iff.1 hw
  obtain ⟨i, rfl⟩ : ∃ i, v = t.vertices i := by
    simp only [list4, Tet.tet, List.mem_cons, List.not_mem_nil, or_false] at hv
    rcases hv with rfl | rfl | rfl | rfl
    exacts [⟨_, rfl⟩, ⟨_, rfl⟩, ⟨_, rfl⟩, ⟨_, rfl⟩]
  rcases hm.toT.vlive _ t i h1 with h2 | ⟨b, _, h2, -⟩
  · exact absurd h2 hg
  · exact ⟨b, h2⟩

/-- The path is a fan. -/
theorem isFan_path {a b : VId} {l : List VId} (hnd : (vt :: vb :: a :: (l ++ [b])).Nodup) (hfan : ∀ p ∈ fanTets vt vb (pathEdges a l b), HasTet m p) :
    IsFan m vt vb (pathEdges a l b) := by
  simp only [List.nodup_cons, List.mem_cons, not_or] at hnd
  obtain ⟨⟨h1, h2, h3⟩, ⟨h4, h5⟩, h6, h7⟩ := hnd
  have hnd' : (a :: (l ++ [b])).Nodup := List.nodup_cons.2 ⟨h6, h7⟩
  have hvt : vt ∉ a :: (l ++ [b]) := fun h => (List.mem_cons.1 h).elim h2 h3
  have hvb : vb ∉ a :: (l ++ [b]) := fun h => (List.mem_cons.1 h).elim h4 h5
  refine ⟨path_nodup hnd', fun e he => path_rev hnd' he, fun e he => ?_, fun e he => hfan _ (mem_fan.2 ⟨e, he, rfl⟩), h1⟩
  obtain ⟨k1, k2⟩ := mem_path he
  exact ⟨fun h => hvt (h ▸ k1), fun h => hvb (h ▸ k1), fun h => hvt (h ▸ k2), fun h => hvb (h ▸ k2), path_ne hnd' he⟩

/-- No edge of the path leaves its end. -/
theorem path_end {a b : VId} {l : List VId} (h : (a :: (l ++ [b])).Nodup) (x : VId) : (b, x) ∉ pathEdges a l b := by
  induction l generalizing a with
  | nil =>
    simp only [pathEdges, List.mem_singleton, Prod.mk.injEq]
    rintro ⟨rfl, -⟩
    simp at h
  | cons y l ih =>
    simp only [pathEdges, List.mem_cons, Prod.mk.injEq]
    rintro (⟨rfl, -⟩ | h1)
    · simp at h
    · exact ih (List.nodup_cons.1 h).2 h1

theorem cap_main (hm : Consistent m) (htr : m.trackTriMap = true) {a b : VId} {l : List VId} {tris : List V3}
    (hnd : (vt :: vb :: a :: (l ++ [b])).Nodup) (hgh : GHOST ∉ vt :: vb :: a :: (l ++ [b])) (hfill : Fills a l b tris)
    (hfan : ∀ p ∈ fanTets vt vb (pathEdges a l b), HasTet m p)
    (hside : ∀ e ∈ triSides tris, e ∈ pathEdges a l b ∨ ¬ HasEdge m e.1 e.2)
    (room : m.tets.size + tris.length ≤ idMax) (eroom : m.edges.size + 12 * tris.length + 6 ≤ idMax) (fuel : Nat) :
    ∃ m', m.capTransform fuel (a :: (l ++ [b])) vt vb tris = some m' ∧
      Replaces m m' (fanTets vt vb (pathEdges a l b)) ((a, b, vt, vb) :: coneTets vt vb tris) ∧
      (Consistent m' ↔ (∀ e ∈ pathEdges a l b, ¬ LockedTri m (e.1, e.2, vb)) ∧ ¬ LockedTri m (a, vt, vb) ∧ ¬ LockedTri m (b, vt, vb)) ∧
      (Consistent m' →
        Transformed m m' (fanTets vt vb (pathEdges a l b)) ((a, b, vt, vb) :: coneTets vt vb tris) tris vt (a :: (l ++ [b]))) := by
  have hF := isFan_path hnd hfan
  have hvv := hF.vv
  have hnd' : (a :: (l ++ [b])).Nodup := (List.nodup_cons.1 (List.nodup_cons.1 hnd).2).2
  have hvt : vt ∉ a :: (l ++ [b]) := fun h => (List.nodup_cons.1 hnd).1 (List.mem_cons_of_mem _ h)
  have hvb : vb ∉ a :: (l ++ [b]) := (List.nodup_cons.1 (List.nodup_cons.1 hnd).2).1
  have hpoles : ∀ r : V3, (∀ v ∈ list3 r, v ∈ a :: (l ++ [b])) → vt ∉ list3 r ∧ vb ∉ list3 r :=
    fun r h => ⟨fun h' => hvt (h vt h'), fun h' => hvb (h vb h')⟩
  obtain ⟨s, hs, ps, pt, left, right⟩ := fills_pieces hfill hnd'
  have hside' : ∀ e ∈ triSides s, e ∈ pathEdges a l b ∨ ¬ HasEdge m e.1 e.2 := by
    intro e he
    obtain ⟨r, hr, h1⟩ := mem_sides.1 he
    obtain ⟨r', hr', h2⟩ := left r hr
    exact hside e (mem_sides.2 ⟨r', hr', side_rot (rot_symm h2) h1⟩)
  have hlen : s.length = tris.length := by rw [ps.len, pt.len]
  obtain ⟨g, hg, hr, -, -⟩ := cap_flips hvv hs hm hnd' hvt hvb hfan hside' (by rw [hlen]; exact room) (by rw [hlen]; omega)
  have hr : Replaces m g (fanTets vt vb (pathEdges a l b)) ([(a, b, vt, vb)] ++ coneTets vt vb tris) := by
    refine Replaces.congr hr (fun p hp => ?_) (fun p hp => ?_)
    · rcases List.mem_cons.1 hp with rfl | hp
      · exact ⟨(a, b, vt, vb), by simp, mem_twelve.1 (by simp [twelve])⟩
      · obtain ⟨p', h1, h2⟩ := cone_rot left hp
        exact ⟨p', by simp [h1], h2⟩
    · rcases List.mem_append.1 hp with hp | hp
      · rw [List.mem_singleton] at hp
        subst hp
        exact ⟨(b, vt, a, vb), by simp, mem_twelve.1 (by simp [twelve])⟩
      · obtain ⟨p', h1, h2⟩ := cone_rot (s' := s) (fun r hr => (right r hr).imp fun r' h => ⟨h.1, rot_symm h.2⟩) hp
        exact ⟨p', by simp [h1], h2⟩
  have hends : l ≠ [] → ¬ HasEdge m a b := by
    intro hl h
    cases hs with
    | side => exact hl rfl
    | split h1 h2 =>
      rcases hside' _ (by simp [triSides] : (b, a) ∈ triSides _) with h3 | h3
      · exact back_path hnd' b h3
      · exact h3 (hasEdge_swap h)
  -- the old tets are taken away
  obtain ⟨x, em, e1, D⟩ := hF.drops hm htr fuel none (pathEdges a l b) (Drop.init hm htr) (fun e he => ⟨he, by simp⟩) (by simp) (by simpa using hF.nd)
  have D : Drop m vt vb (pathEdges a l b) False x em := D.perm (by simpa using List.reverse_perm _)
  have hcor : ∀ r ∈ tris, ∀ v ∈ list3 r, ∃ e ∈ pathEdges a l b, v = e.1 ∨ v = e.2 := fun r hr v hv => path_cover a l b (pt.corner r hr v hv)
  obtain ⟨ea, hea, eaa⟩ := path_first a l b
  obtain ⟨eb, heb, ebb⟩ := path_last a l b
  have hN : ∀ q ∈ [(a, b, vt, vb)] ++ coneTets vt vb tris, ∀ u ∈ list4 q, ∀ v ∈ list4 q, u ≠ v →
      (∃ e ∈ pathEdges a l b, u ∈ list4 (fanTet vt vb e) ∧ v ∈ list4 (fanTet vt vb e)) ∨ ¬ HasEdge m u v := by
    intro q hq u hu v hv huv
    rcases List.mem_append.1 hq with hq | hq
    · rw [List.mem_singleton] at hq
      subst hq
      have A : ∀ u, u = a ∨ u = vt ∨ u = vb → u ∈ list4 (fanTet vt vb ea) := by
        rintro u (rfl | rfl | rfl) <;> simp [list4, fanTet, eaa]
      have B : ∀ u, u = b ∨ u = vt ∨ u = vb → u ∈ list4 (fanTet vt vb eb) := by
        rintro u (rfl | rfl | rfl) <;> simp [list4, fanTet, ebb]
      have ab : (∃ e ∈ pathEdges a l b, a ∈ list4 (fanTet vt vb e) ∧ b ∈ list4 (fanTet vt vb e)) ∨ ¬ HasEdge m a b := by
        by_cases hl : l = []
        · subst hl
          exact .inl ⟨(a, b), by simp [pathEdges], by simp [list4, fanTet], by simp [list4, fanTet]⟩
        · exact .inr (hends hl)
      simp only [list4, List.mem_cons, List.not_mem_nil, or_false] at hu hv
      rcases hu with rfl | hu
      · rcases hv with rfl | rfl | hv
        · exact absurd rfl huv
        · exact ab
        · exact .inl ⟨ea, hea, A _ (.inl rfl), A _ (.inr hv)⟩
      · rcases hu with rfl | hu
        · rcases hv with rfl | hv
          · rcases ab with ⟨e, h1, h2, h3⟩ | h1
            · exact .inl ⟨e, h1, h3, h2⟩
            · exact .inr fun h2 => h1 (hasEdge_swap h2)
          · exact .inl ⟨eb, heb, B _ (.inl rfl), B _ hv⟩
        · rcases hv with rfl | hv
          · exact .inl ⟨ea, hea, A _ (.inr hu), A _ (.inl rfl)⟩
          · exact .inl ⟨eb, heb, B _ (.inr hu), B _ hv⟩
    · exact cone_pairs hcor hside q hq u hu v hv huv
  have hspg : HasTet g (a, b, vt, vb) := (hr.2 _).2 (.inr ⟨_, by simp, same_refl _⟩)
  have p0 := D.part hm hg htr hF hr hN (fun _ => tet_mem_edge hg hspg (by simp [list4]) (by simp [list4]) hvv) (fun h => h.elim)
  have hlive : ∀ q, HasTet g q → ∀ v ∈ list4 q, v ∈ vt :: vb :: a :: (l ++ [b]) → ∃ y, m.vertices.get v = some y := by
    intro q _ v _ hv
    have hg' : v ≠ GHOST := fun h => hgh (h ▸ hv)
    rcases List.mem_cons.1 hv with rfl | hv
    · exact live_of hm (hF.has ea hea) (by simp [list4, fanTet]) hg'
    · rcases List.mem_cons.1 hv with rfl | hv
      · exact live_of hm (hF.has ea hea) (by simp [list4, fanTet]) hg'
      · obtain ⟨e, he, h1⟩ := path_cover a l b hv
        exact live_of hm (hF.has e he) (by rcases h1 with rfl | rfl <;> simp [list4, fanTet]) hg'
  have spIn : ∀ v ∈ list4 (a, b, vt, vb), v ∈ vt :: vb :: a :: (l ++ [b]) := by
    intro v hv
    simp only [list4, List.mem_cons, List.not_mem_nil, or_false, List.mem_append] at hv ⊢
    tauto
  have hsize : x.tets.size + (l.length + 1) = m.tets.size := by
    have := D.size
    rwa [path_length] at this
  have hlt := pt.len
  -- the tet at the end vertices
  have fits0 : Fits g (NewPair ([(a, b, vt, vb)] ++ coneTets vt vb tris)) (OldPair g) x (a, b, vt, vb) := by
    refine ⟨hspg, fun h => ?_, fun u hu v hv huv => ⟨⟨_, by simp, u, hu, v, hv, huv, rfl⟩, u, v, rfl, tet_mem_edge hg hspg hu hv huv⟩, fun v hv => ?_⟩
    · have h1 := (D.has _).1 h
      by_cases hl : l = []
      · subst hl
        exact h1.2 (b, vt, a, vb) (by simp [fanTets, pathEdges]) (mem_twelve.1 (by simp [twelve]))
      · refine hends hl (tet_mem_edge hm h1.1 (by simp [list4]) (by simp [list4]) fun h => ?_)
        subst h
        simp at hnd'
    · obtain ⟨y, hy⟩ := hlive _ hspg v hv (spIn v hv)
      exact ⟨y, by rw [show x.vertices = m.vertices from congrArg (fun z => z.vertices) D.rest, hy]⟩
  obtain ⟨x1, em1, k, e2, -, -, p1, G, -⟩ := p0.grow hg fuel _ fits0 (by omega) (by have := D.esize; omega)
  have hsize1 := G.size
  have hesize1 := G.esize
  have hcm : ∀ q ∈ coneTets vt vb tris, ∃ r ∈ tris, ∃ y, (y = vt ∨ y = vb) ∧ (∀ v, v ∈ list4 q ↔ v ∈ list3 r ∨ v = y) ∧
      (q = (r.2.1, r.1, r.2.2, vt) ∨ q = (r.1, r.2.1, r.2.2, vb)) := by
    intro q hq
    obtain ⟨r, h1, h2⟩ := mem_cones.1 hq
    obtain ⟨y, h3, h4⟩ := cone_mem h2
    exact ⟨r, h1, y, h3, h4, h2⟩
  obtain ⟨x', em', e3, R, only, final⟩ := D.finish hm hg hF hr p1 G
    (by
      rintro v ⟨⟨e, he, h1⟩, h2⟩
      have h3 : v ∈ a :: (l ++ [b]) := by
        simp only [list4, fanTet, List.mem_cons, List.not_mem_nil, or_false] at h1 h2
        rcases h1 with rfl | rfl | rfl | rfl
        · exact (mem_path he).2
        · exact absurd (.inr (.inr (.inl rfl))) h2
        · exact (mem_path he).1
        · exact absurd (.inr (.inr (.inr rfl))) h2
      rcases pt.cover v h3 with rfl | rfl | ⟨r, h4, h5⟩
      · exact absurd (by simp [list4]) h2
      · exact absurd (by simp [list4]) h2
      · refine ⟨_, mem_cones.2 ⟨r, h4, .inl rfl⟩, ?_⟩
        simp only [list3, list4, List.mem_cons, List.not_mem_nil, or_false] at h5 ⊢
        tauto)
    (by
      intro r h1 h
      obtain ⟨e, h3, h4⟩ := pt.back r h1
      exact ((hside e (mem_sides.2 ⟨r, h1, h3⟩)).resolve_left h4) (side_of_tri hm h h3 (ne_of_side (pt.nd r h1) h3)))
    (by
      rw [List.singleton_append, List.pairwise_cons]
      refine ⟨fun q hq h => ?_, cones_pairwise hvv pt.diff (fun r hr => (hpoles r (pt.corner r hr)).1) (fun r hr => (hpoles r (pt.corner r hr)).2)⟩
      obtain ⟨r, h1, h2⟩ := mem_cones.1 hq
      obtain ⟨n1, n2⟩ := hpoles r (pt.corner r h1)
      exact one_pole hvv n1 n2 h2 (SameTet.symm' h) ⟨by simp [list4], by simp [list4]⟩)
    (by
      intro q hq v hv
      have hgq : HasTet g q := (hr.2 q).2 (.inr ⟨q, by simp [hq], same_refl q⟩)
      refine hlive q hgq v hv ?_
      obtain ⟨r, h1, y, h2, h3, -⟩ := hcm q hq
      rcases (h3 v).1 hv with h4 | rfl
      · exact List.mem_cons_of_mem _ (List.mem_cons_of_mem _ (pt.corner r h1 v h4))
      · rcases h2 with rfl | rfl <;> simp)
    fuel (by omega) (by have := D.esize; omega)
  refine ⟨x', ?_, R, ⟨fun hx => ?_, fun ⟨hbot, ha, hb⟩ => (final (loose_of hm hbot
      (fun e he => (path_next a l b he).elim (fun h => .inr (h ▸ hb)) .inl)
      (fun e he => (path_prev a l b he).elim (fun h => .inr (h ▸ ha)) .inl))).cons⟩, fun hx => (final (only hx)).transformed fun v => ?_⟩
  · have hlast : (a :: (l ++ [b])).getLast? = some b := List.getLast?_concat (l := a :: l)
    simp only [Mesh.capTransform, List.drop_succ_cons, List.drop_zero, path_zip, e1, Option.bind_eq_bind, Option.bind_some, List.head?_cons,
      hlast, e2, e3, pure]
  · have hU := only hx
    refine ⟨fun e he => (hF.of_loose hm hU he).1, ?_, ?_⟩
    · exact eaa ▸ (hF.of_loose hm hU hea).2.2 fun e' he' h => back_path hnd' e'.1 ((Prod.ext rfl (h.trans eaa) : e' = (e'.1, a)) ▸ he')
    · exact ebb ▸ (hF.of_loose hm hU heb).2.1 fun e' he' h => path_end hnd' e'.2 ((Prod.ext (h.trans ebb) rfl : e' = (b, e'.2)) ▸ he')
  · constructor
    · exact fun h => .inl (path_cover a l b h)
    · rintro (⟨e, he, rfl | rfl⟩ | h)
      · exact (mem_path he).1
      · exact (mem_path he).2
      · exact h.1.elim


theorem shell_main (hm : Consistent m) (htr : m.trackTriMap = true) {a b : VId} {l : List VId} {tris : List V3} (hl : l ≠ [])
    (hnd : (vt :: vb :: a :: (l ++ [b])).Nodup) (hgh : GHOST ∉ vt :: vb :: a :: (l ++ [b])) (hfill : Fills a l b tris)
    (hfan : ∀ p ∈ fanTets vt vb (pathEdges a l b ++ [(b, a)]), HasTet m p)
    (hside : ∀ e ∈ triSides tris, e ∈ pathEdges a l b ++ [(b, a)] ∨ ¬ HasEdge m e.1 e.2) (hno : ∀ r ∈ tris, ¬ HasTri m r)
    (room : m.tets.size + tris.length ≤ idMax) (eroom : m.edges.size + 12 * tris.length ≤ idMax) (fuel : Nat) :
    ∃ m', m.shellTransform fuel (a :: (l ++ [b])) vt vb tris = some m' ∧
      Replaces m m' (fanTets vt vb (pathEdges a l b ++ [(b, a)])) (coneTets vt vb tris) ∧
      (Consistent m' ↔ ∀ e ∈ pathEdges a l b ++ [(b, a)], ¬ LockedTri m (e.1, e.2, vb)) ∧
      (Consistent m' →
        Transformed m m' (fanTets vt vb (pathEdges a l b ++ [(b, a)])) (coneTets vt vb tris) tris vt (vb :: a :: (l ++ [b])) ∧ ¬ HasEdge m' vt vb) := by
  have hF0 := isFan_path hnd (m := m) fun p hp => hfan p (by rw [fanTets, List.map_append]; exact List.mem_append.2 (.inl hp))
  have hvv := hF0.vv
  have hnd' : (a :: (l ++ [b])).Nodup := (List.nodup_cons.1 (List.nodup_cons.1 hnd).2).2
  have hvt : vt ∉ a :: (l ++ [b]) := fun h => (List.nodup_cons.1 hnd).1 (List.mem_cons_of_mem _ h)
  have hvb : vb ∉ a :: (l ++ [b]) := (List.nodup_cons.1 (List.nodup_cons.1 hnd).2).1
  have hab : a ≠ b := by
    rintro rfl
    simp at hnd'
  have hF : IsFan m vt vb (pathEdges a l b ++ [(b, a)]) := by
    refine ⟨?_, ?_, ?_, fun e he => hfan _ (mem_fan.2 ⟨e, he, rfl⟩), hvv⟩
    · rw [List.nodup_append]
      refine ⟨hF0.nd, by simp, ?_⟩
      rintro e he e' he' rfl
      rw [List.mem_singleton] at he'
      exact back_path hnd' b (he' ▸ he)
    · intro e he he'
      rcases List.mem_append.1 he with he | he <;> rcases List.mem_append.1 he' with he' | he'
      · exact hF0.rev e he he'
      · simp only [List.mem_singleton, Prod.mk.injEq] at he'
        obtain ⟨e1, e2⟩ := e
        obtain ⟨rfl, rfl⟩ := he'
        exact hl (path_chord hnd' he)
      · rw [List.mem_singleton] at he
        subst he
        exact hl (path_chord hnd' he')
      · rw [List.mem_singleton] at he
        subst he
        simp only [List.mem_singleton, Prod.mk.injEq] at he'
        exact hab he'.1
    · intro e he
      rcases List.mem_append.1 he with he | he
      · exact hF0.off e he
      · rw [List.mem_singleton] at he
        subst he
        exact ⟨fun h => hvt (by simp [← h]), fun h => hvb (by simp [← h]), fun h => hvt (by simp [← h]), fun h => hvb (by simp [← h]), hab.symm⟩
  have hpoles : ∀ r : V3, (∀ v ∈ list3 r, v ∈ a :: (l ++ [b])) → vt ∉ list3 r ∧ vb ∉ list3 r :=
    fun r h => ⟨fun h' => hvt (h vt h'), fun h' => hvb (h vb h')⟩
  have hin : ∀ {e}, e ∈ pathEdges a l b ++ [(b, a)] → e.1 ∈ a :: (l ++ [b]) ∧ e.2 ∈ a :: (l ++ [b]) := by
    intro e he
    rcases List.mem_append.1 he with he | he
    · exact mem_path he
    · rw [List.mem_singleton] at he
      subst he
      simp
  obtain ⟨s, hs, ps, pt, left, right⟩ := fills_pieces hfill hnd'
  have hside' : ∀ e ∈ triSides s, e ∈ pathEdges a l b ++ [(b, a)] ∨ ¬ HasEdge m e.1 e.2 := by
    intro e he
    obtain ⟨r, hr, h1⟩ := mem_sides.1 he
    obtain ⟨r', hr', h2⟩ := left r hr
    exact hside e (mem_sides.2 ⟨r', hr', side_rot (rot_symm h2) h1⟩)
  have hlen : s.length = tris.length := by rw [ps.len, pt.len]
  obtain ⟨g, hg, hr, hone⟩ : ∃ g : Mesh P V T, Consistent g ∧ Replaces m g (fanTets vt vb (pathEdges a l b ++ [(b, a)])) (coneTets vt vb s) ∧
      (∀ v ∈ a :: (l ++ [b]), ∃ r ∈ s, v ∈ list3 r) := by
    have cov := ps.cover
    cases hs with
    | side => exact absurd rfl hl
    | @split _ l₁ c l₂ _ s₁ s₂ h1 h2 =>
      obtain ⟨r', hr', h3⟩ := left (a, c, b) (by simp)
      have hno' : ¬ HasTri m (c, a, b) := fun h => hno r' hr' (hasTri_either hm (r := (c, a, b)) (.inl h3) h)
      have : s₁.length + s₂.length + 1 = tris.length := by simpa [Nat.add_comm] using hlen
      obtain ⟨g, hg, hr⟩ := shell_flips hvv h1 h2 hm hnd' hvt hvb hfan hside' hno' (by omega) (by omega)
      refine ⟨g, hg, hr, fun v hv => ?_⟩
      rcases cov v hv with rfl | rfl | h
      · exact ⟨(v, c, b), by simp, by simp [list3]⟩
      · exact ⟨(a, c, v), by simp, by simp [list3]⟩
      · exact h
  have hr : Replaces m g (fanTets vt vb (pathEdges a l b ++ [(b, a)])) ([] ++ coneTets vt vb tris) :=
    Replaces.congr hr (fun p hp => cone_rot left hp)
      (fun p hp => cone_rot (fun r hr => (right r hr).imp fun r' h => ⟨h.1, rot_symm h.2⟩) hp)
  -- the old tets are taken away
  obtain ⟨x0, em0, e1, D0⟩ := hF.drops hm htr fuel (some a) (pathEdges a l b) (Drop.init hm htr)
    (fun e he => ⟨List.mem_append.2 (.inl he), fun h => back_path hnd' e.1 ((Prod.ext rfl (Option.some.inj h) : e = (e.1, a)) ▸ he)⟩) (by simp)
    (by simpa using hF0.nd)
  have hlast : (b, a) ∈ pathEdges a l b ++ [(b, a)] := by simp
  have hR : ∀ e ∈ (pathEdges a l b).reverse ++ [], e ∈ pathEdges a l b := by simp
  obtain ⟨x, em, e2, D⟩ := D0.step hm htr fuel (some a) (b, a) (hF.has _ hlast)
    (fun e' he' hs => by
      have := hF.edge_eq (List.mem_append.2 (.inl (hR e' he'))) hlast ((SameTet.mem hs _).1 (by simp [list4, fanTet]))
        ((SameTet.mem hs _).1 (by simp [list4, fanTet]))
      exact back_path hnd' b (this ▸ hR e' he'))
    (fun o _ e' he' => hF.top hm hlast ((List.mem_cons.1 he').elim (fun h => h ▸ hlast) fun h => List.mem_append.2 (.inl (hR e' h))) o)
  rw [show (some (b, a).2 = some a) = True from eq_true rfl] at D
  have D : Drop m vt vb (pathEdges a l b ++ [(b, a)]) True x em := D.perm (by
    rw [List.append_nil]
    exact (List.Perm.cons _ (List.reverse_perm _)).trans (List.perm_append_singleton _ _).symm)
  have hcor : ∀ r ∈ tris, ∀ v ∈ list3 r, ∃ e ∈ pathEdges a l b ++ [(b, a)], v = e.1 ∨ v = e.2 := fun r hr v hv =>
    (path_cover a l b (pt.corner r hr v hv)).imp fun e h => ⟨List.mem_append.2 (.inl h.1), h.2⟩
  have next : ∀ e ∈ pathEdges a l b ++ [(b, a)], ∃ e' ∈ pathEdges a l b ++ [(b, a)], e'.1 = e.2 := by
    intro e he
    rcases List.mem_append.1 he with he | he
    · rcases path_next a l b he with h | ⟨e', h1, h2⟩
      · exact ⟨(b, a), hlast, h.symm⟩
      · exact ⟨e', List.mem_append.2 (.inl h1), h2⟩
    · rw [List.mem_singleton] at he
      subst he
      obtain ⟨e', h1, h2⟩ := path_first a l b
      exact ⟨e', List.mem_append.2 (.inl h1), h2⟩
  have prev : ∀ e ∈ pathEdges a l b ++ [(b, a)], ∃ e' ∈ pathEdges a l b ++ [(b, a)], e'.2 = e.1 := by
    intro e he
    rcases List.mem_append.1 he with he | he
    · rcases path_prev a l b he with h | ⟨e', h1, h2⟩
      · exact ⟨(b, a), hlast, h.symm⟩
      · exact ⟨e', List.mem_append.2 (.inl h1), h2⟩
    · rw [List.mem_singleton] at he
      subst he
      obtain ⟨e', h1, h2⟩ := path_last a l b
      exact ⟨e', List.mem_append.2 (.inl h1), h2⟩
  have hgone : ∀ {g : Mesh P V T}, Consistent g → Replaces m g (fanTets vt vb (pathEdges a l b ++ [(b, a)])) ([] ++ coneTets vt vb tris) →
      ¬ HasEdge g vt vb := by
    intro g hg hr h
    obtain ⟨p, q, hpq⟩ := hg.toT.hasEdge_tet.1 h
    rcases (hr.2 _).1 hpq with ⟨h1, h2⟩ | ⟨p', h1, h2⟩
    · obtain ⟨e, he, h3⟩ := hF.closed hm next prev (by simp) h1
      exact h2 _ (mem_fan.2 ⟨e, he, rfl⟩) h3
    · obtain ⟨r, h3, h4⟩ := mem_cones.1 h1
      obtain ⟨n1, n2⟩ := hpoles r (pt.corner r h3)
      exact one_pole hvv n1 n2 h4 h2 ⟨by simp [list4], by simp [list4]⟩
  have p0 := D.part hm hg htr hF hr (cone_pairs hcor hside) (fun h => absurd trivial h) (fun _ => hgone hg hr)
  have hsize : x.tets.size + (l.length + 2) = m.tets.size := by
    have := D.size
    rw [List.length_append, path_length] at this
    simpa [Nat.add_assoc] using this
  have hlt := pt.len
  have G0 : Grow x x [] (fun _ => False) (fun _ => False) 0 :=
    ⟨by simp, by simp, by simp, fun j t h => ⟨t, h, rfl, rfl⟩, fun _ => rfl, rfl, rfl, by omega⟩
  obtain ⟨x', em', e3, R, only, final⟩ := D.finish hm hg hF hr p0 G0
    (by
      rintro v ⟨e, he, h1⟩
      have h0 := hone
      simp only [list4, fanTet, List.mem_cons, List.not_mem_nil, or_false] at h1
      have hmem : v = vt ∨ v = vb ∨ v ∈ a :: (l ++ [b]) := by
        rcases h1 with rfl | rfl | rfl | rfl
        · exact .inr (.inr (hin he).2)
        · exact .inl rfl
        · exact .inr (.inr (hin he).1)
        · exact .inr (.inl rfl)
      have conv : ∀ v ∈ a :: (l ++ [b]), ∃ r ∈ tris, v ∈ list3 r := by
        intro v hv
        obtain ⟨r, h3, h4⟩ := hone v hv
        obtain ⟨r', h5, h6⟩ := left r h3
        exact ⟨r', h5, (rotation_mem h6 v).2 h4⟩
      obtain ⟨ra, h3, -⟩ := conv a (by simp)
      rcases hmem with rfl | rfl | h2
      · exact ⟨_, mem_cones.2 ⟨ra, h3, .inl rfl⟩, by simp [list4]⟩
      · exact ⟨_, mem_cones.2 ⟨ra, h3, .inr rfl⟩, by simp [list4]⟩
      · obtain ⟨r, h4, h5⟩ := conv v h2
        refine ⟨_, mem_cones.2 ⟨r, h4, .inl rfl⟩, ?_⟩
        simp only [list3, list4, List.mem_cons, List.not_mem_nil, or_false] at h5 ⊢
        tauto)
    hno
    (cones_pairwise hvv pt.diff (fun r hr => (hpoles r (pt.corner r hr)).1) (fun r hr => (hpoles r (pt.corner r hr)).2))
    (by
      intro q hq v hv
      obtain ⟨r, h1, h2⟩ := mem_cones.1 hq
      obtain ⟨y, h3, h4⟩ := cone_mem h2
      obtain ⟨e0, he0, -⟩ := path_first a l b
      have he0 : e0 ∈ pathEdges a l b ++ [(b, a)] := List.mem_append.2 (.inl he0)
      rcases (h4 v).1 hv with h5 | rfl
      · obtain ⟨e, he, h6⟩ := hcor r h1 v h5
        exact live_of hm (hF.has e he) (by rcases h6 with rfl | rfl <;> simp [list4, fanTet]) fun h => hgh (by
          rw [← h]
          exact List.mem_cons_of_mem _ (List.mem_cons_of_mem _ (pt.corner r h1 v h5)))
      · exact live_of hm (hF.has e0 he0) (by rcases h3 with rfl | rfl <;> simp [list4, fanTet]) fun h => hgh (by
          rw [← h]
          rcases h3 with rfl | rfl <;> simp))
    fuel (by omega) (by have := D.esize; omega)
  refine ⟨x', ?_, R, ⟨fun hx e he => (hF.of_loose hm (only hx) he).1, fun hbot =>
      (final (loose_of hm hbot (fun e he => .inl (next e he)) (fun e he => .inl (prev e he)))).cons⟩,
    fun hx => ⟨(final (only hx)).transformed fun v => ?_, hgone hx R⟩⟩
  · have hz : (a :: (l ++ [b])).zip ((a :: (l ++ [b])).drop 1 ++ (a :: (l ++ [b])).take 1) = pathEdges a l b ++ [(b, a)] := path_round a l b a
    rw [Mesh.shellTransform, hz, List.foldlM_append, List.head?_cons, e1]
    simp only [List.foldlM_cons, List.foldlM_nil, e2, e3, Option.bind_eq_bind, Option.bind_some, pure]
  · constructor
    · intro h
      rcases List.mem_cons.1 h with rfl | h
      · exact .inr ⟨trivial, rfl⟩
      · exact .inl ((path_cover a l b h).imp fun e h => ⟨List.mem_append.2 (.inl h.1), h.2⟩)
    · rintro (⟨e, he, rfl | rfl⟩ | h)
      · exact List.mem_cons_of_mem _ (hin he).1
      · exact List.mem_cons_of_mem _ (hin he).2
      · simp [h.2]

end Tet
