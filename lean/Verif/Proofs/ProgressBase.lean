import Verif.Spec.Progress
import Verif.Proofs.FlipQuality
import Mathlib.Order.Filter.AtTopBot.Basic

/-!
# Removing edges and triangles: rings, goals and flips
-/

namespace Tet
open Spec Filter
variable {P V T : Type} {tests : ProgressTests P V T}

/-! ## What runs keep -/

/-- The state of the mesh in which the functions work. -/
structure Fine (tests : ProgressTests P V T) (m : Mesh P V T) : Prop where
  cons : ConsistentT m
  track : m.trackTriMap = true
  good : GoodOrient tests.pos m
  oriented : Oriented tests.pos m
  never : ∀ m1, ProgressRun tests m m1 → ¬ ProgressStuck tests m1

theorem Spec.GoodOrient.of_same {pos : Mesh P V T → V4 → Bool} {m m' : Mesh P V T} (h : GoodOrient pos m)
    (hs : SameVertices m m') : GoodOrient pos m' := by
  refine ⟨fun m2 h2 p => ?_, fun a b c d q hn hq => ?_, fun a b c d hp => ?_⟩
  · rw [h.verts m2 (SameVertices.trans' hs h2), h.verts m' hs]
  · rw [h.verts m' hs, h.verts m' hs]
    exact h.even a b c d q hn hq
  · rw [h.verts m' hs] at hp ⊢
    exact h.mirror a b c d hp

theorem nodup_of_ne4 {a b c d : VId} (h : a ≠ b ∧ a ≠ c ∧ a ≠ d ∧ b ≠ c ∧ b ≠ d ∧ c ≠ d) : [a, b, c, d].Nodup := by
  simp only [List.nodup_cons, List.mem_cons, List.not_mem_nil, or_false, not_or, List.nodup_nil, and_true]
  exact ⟨⟨h.1, h.2.1, h.2.2.1⟩, ⟨h.2.2.2.1, h.2.2.2.2.1⟩, h.2.2.2.2.2, not_false⟩

theorem sameTet_mirror {a b c d a' b' c' d' : VId} (h : SameTet (a, b, c, d) (a', b', c', d')) :
    SameTet (a, b, d, c) (a', b', d', c') := by
  obtain ⟨i, hi⟩ := sameTet_iff.1 h
  have key : ∀ i : Code, ∃ j : Code, ∀ v : Fin 4 → VId,
      (v (perms i 0), v (perms i 1), v (perms i 3), v (perms i 2)) =
      ((v ∘ ![0, 1, 3, 2]) (perms j 0), (v ∘ ![0, 1, 3, 2]) (perms j 1), (v ∘ ![0, 1, 3, 2]) (perms j 2),
        (v ∘ ![0, 1, 3, 2]) (perms j 3)) := by
    have : ∀ i : Code, ∃ j : Code, perms i 0 = ![0, 1, 3, 2] (perms j 0) ∧ perms i 1 = ![0, 1, 3, 2] (perms j 1) ∧
      perms i 3 = ![0, 1, 3, 2] (perms j 2) ∧ perms i 2 = ![0, 1, 3, 2] (perms j 3) := by decide
    intro i
    obtain ⟨j, h1, h2, h3, h4⟩ := this i
    refine ⟨j, fun v => ?_⟩
    simp only [Function.comp]
    rw [h1, h2, h3, h4]
  obtain ⟨j, hj⟩ := key i
  refine sameTet_code j ?_
  have h2 := hj (quad (a, b, c, d))
  have h3 : quad (a, b, d, c) = quad (a, b, c, d) ∘ ![0, 1, 3, 2] := by
    funext k; fin_cases k <;> rfl
  rw [h3, ← h2]
  simp only [Prod.mk.injEq] at hi ⊢
  exact ⟨hi.1, hi.2.1, hi.2.2.2, hi.2.2.1⟩

theorem progressFlip_fine {m m' : Mesh P V T} (hm : ConsistentT m) (hg : GoodOrient tests.pos m)
    (ho : Oriented tests.pos m) (h : ProgressFlip tests m m') :
    ConsistentT m' ∧ SameVertices m m' ∧ SameLocks m m' ∧ FlipStep m m' ∧ Oriented tests.pos m' := by
  obtain ⟨old, new, h1, h2, -, -⟩ := h
  have F := h1.done hm
  refine ⟨F.cons, F.verts, F.locks, F.step, ?_⟩
  have key : ∀ a b c d, HasTet m' (a, b, c, d) → tests.pos m (a, b, d, c) = false := by
    intro a b c d h3
    rcases (F.rep.2 (a, b, c, d)).1 h3 with ⟨h4, -⟩ | ⟨q, hq, h4⟩
    · exact (ho a b c d h4).1
    · obtain ⟨w, hw⟩ := h3
      have hn := nodup_of_ne4 (F.cons.ne4 hw)
      have := hg.even a b c d q hn (SameTet.symm' h4)
      exact hg.mirror a b c d (this ▸ h2 q hq)
  intro a b c d h3
  rw [hg.verts m' F.verts]
  refine ⟨key a b c d h3, fun h4 => ?_⟩
  have k1 := key a b c d h3
  have k2 := key a b d c h4
  rcases (F.rep.2 (a, b, c, d)).1 h3 with ⟨h5, -⟩ | ⟨q, hq, h5⟩
  · rcases (F.rep.2 (a, b, d, c)).1 h4 with ⟨h6, -⟩ | ⟨q, hq, h6⟩
    · exact (ho a b c d h5).2 h6
    · obtain ⟨w, hw⟩ := h4
      have := hg.even a b d c q (nodup_of_ne4 (F.cons.ne4 hw)) (SameTet.symm' h6)
      rw [h2 q hq, k1] at this
      cases this
  · obtain ⟨w, hw⟩ := h3
    have := hg.even a b c d q (nodup_of_ne4 (F.cons.ne4 hw)) (SameTet.symm' h5)
    rw [h2 q hq, k2] at this
    cases this

theorem Spec.ProgressRun.trans' {m m1 m2 : Mesh P V T} (h : ProgressRun tests m m1) (h' : ProgressRun tests m1 m2) :
    ProgressRun tests m m2 := by
  induction h with
  | refl => exact h'
  | step hs _ ih => exact .step hs (ih h')

theorem Spec.ProgressRun.one {m m1 : Mesh P V T} (h : ProgressFlip tests m m1) : ProgressRun tests m m1 :=
  .step h (.refl _)

theorem Spec.SameLocks.trans' {m m1 m2 : Mesh P V T} (h : SameLocks m m1) (h' : SameLocks m1 m2) : SameLocks m m2 :=
  ⟨fun s => (h'.1 s).trans (h.1 s), fun a b => (h'.2 a b).trans (h.2 a b)⟩

theorem progressRun_keeps {m m' : Mesh P V T} (hm : ConsistentT m) (hg : GoodOrient tests.pos m)
    (ho : Oriented tests.pos m) (h : ProgressRun tests m m') :
    ConsistentT m' ∧ SameVertices m m' ∧ SameLocks m m' ∧ FlipSteps m m' ∧ Oriented tests.pos m' := by
  induction h with
  | refl m => exact ⟨hm, ⟨fun _ => rfl, rfl, rfl, rfl⟩, ⟨fun _ => .rfl, fun _ _ => .rfl⟩, .refl m, ho⟩
  | step hs _ ih =>
    obtain ⟨h1, h2, h3, h4, h5⟩ := progressFlip_fine hm hg ho hs
    obtain ⟨k1, k2, k3, k4, k5⟩ := ih h1 (hg.of_same h2) h5
    exact ⟨k1, SameVertices.trans' h2 k2, h3.trans' k3, flipSteps_head h4 k4, k5⟩

theorem Fine.run {m m' : Mesh P V T} (h : Fine tests m) (hr : ProgressRun tests m m') : Fine tests m' := by
  obtain ⟨h1, h2, h3, h4, h5⟩ := progressRun_keeps h.cons h.good h.oriented hr
  exact ⟨h1, h2.2.2.1.trans h.track, h.good.of_same h2, h5, fun m1 h6 => h.never m1 (hr.trans' h6)⟩

theorem Fine.locks {m m' : Mesh P V T} (h : Fine tests m) (hr : ProgressRun tests m m') : SameLocks m m' :=
  (progressRun_keeps h.cons h.good h.oriented hr).2.2.1

/-! ## Goals -/

theorem Spec.KeepsGoals.refl' (m : Mesh P V T) (l : List EdgeOrTri) : KeepsGoals m m l := fun _ _ h => h
theorem Spec.KeepsGoals.trans' {m m1 m2 : Mesh P V T} {l : List EdgeOrTri} (h : KeepsGoals m m1 l) (h' : KeepsGoals m1 m2 l) :
    KeepsGoals m m2 l := fun g hg hp => h' g hg (h g hg hp)
theorem Spec.KeepsGoals.sub {m m1 : Mesh P V T} {l l' : List EdgeOrTri} (h : KeepsGoals m m1 l) (hl : ∀ g ∈ l', g ∈ l) :
    KeepsGoals m m1 l' := fun g hg hp => h g (hl g hg) hp
theorem Spec.SparesBad.refl' (m : Mesh P V T) (l : List (VId × VId)) : SparesBad m m l := fun _ _ _ _ h => h
theorem Spec.SparesBad.trans' {m m1 m2 : Mesh P V T} {l : List (VId × VId)} (h : SparesBad m m1 l) (h' : SparesBad m1 m2 l) :
    SparesBad m m2 l := fun a b c hb hp => h a b c hb (h' a b c hb hp)
theorem Spec.SparesBad.sub {m m1 : Mesh P V T} {l l' : List (VId × VId)} (h : SparesBad m m1 l) (hl : ∀ g ∈ l', g ∈ l) :
    SparesBad m m1 l' := fun a b c hb hp => h a b c (hb.imp (hl _) (hl _)) hp

theorem sorted2_cases (a b : VId) : sorted2 (a, b) = (a, b) ∧ a ≤ b ∨ sorted2 (a, b) = (b, a) ∧ b ≤ a := by
  simp only [sorted2]
  split_ifs with h
  · exact .inr ⟨rfl, by omega⟩
  · exact .inl ⟨rfl, by omega⟩

theorem sorted2_swap (a b : VId) : sorted2 (b, a) = sorted2 (a, b) := by
  simp only [sorted2]
  split_ifs <;> first | rfl | omega | (simp only [Prod.mk.injEq]; omega)

theorem hasEdge_comm {m : Mesh P V T} {a b : VId} : HasEdge m a b ↔ HasEdge m b a := by
  simp only [HasEdge, min_comm a b, max_comm a b]

theorem present_edge {m : Mesh P V T} (a b : VId) : Present m (.edge (sorted2 (a, b))) ↔ HasEdge m a b := by
  rcases sorted2_cases a b with ⟨h, -⟩ | ⟨h, -⟩ <;> rw [h] <;> simp only [Present]
  exact hasEdge_comm

theorem sortedGoal_edge (a b : VId) : SortedGoal (.edge (sorted2 (a, b))) := by
  rcases sorted2_cases a b with ⟨h, h'⟩ | ⟨h, h'⟩ <;> rw [h] <;> exact h'

theorem sorted3_mem (a b c : VId) : sorted3 (a, b, c) ∈ six3 (a, b, c) := by
  simp only [sorted3, six3]
  split_ifs <;> simp

theorem six3_symm {a b c : VId} {t : V3} (h : t ∈ six3 (a, b, c)) : (a, b, c) ∈ six3 t := by
  simp only [six3, List.mem_cons, List.not_mem_nil, or_false] at h ⊢
  rcases h with rfl | rfl | rfl | rfl | rfl | rfl <;> simp

theorem sortedGoal_tri (t : V3) : SortedGoal (.tri (sorted3 t)) := by
  obtain ⟨a, b, c⟩ := t
  simp only [sorted3, SortedGoal]
  split_ifs <;> simp <;> omega

theorem sorted3_of_sorted {t : V3} (h : SortedGoal (.tri t)) : sorted3 t = t := by
  obtain ⟨a, b, c⟩ := t
  simp only [SortedGoal] at h
  simp only [sorted3]
  split_ifs <;> simp <;> omega

theorem six3_trans {r s t : V3} (h : s ∈ six3 r) (h' : t ∈ six3 s) : t ∈ six3 r := by
  obtain ⟨a, b, c⟩ := r
  simp only [six3, List.mem_cons, List.not_mem_nil, or_false] at h
  rcases h with rfl | rfl | rfl | rfl | rfl | rfl <;>
    simp only [six3, List.mem_cons, List.not_mem_nil, or_false] at h' ⊢ <;> tauto

theorem six3_sorted {s t : V3} (h : t ∈ six3 s) (hs : SortedGoal (.tri s)) (ht : SortedGoal (.tri t)) : t = s := by
  obtain ⟨a, b, c⟩ := s
  simp only [six3, List.mem_cons, List.not_mem_nil, or_false] at h
  simp only [SortedGoal] at hs
  rcases h with rfl | rfl | rfl | rfl | rfl | rfl <;> simp only [SortedGoal] at ht <;> simp only [Prod.mk.injEq] <;>
      refine ⟨?_, ?_, ?_⟩ <;> first | trivial | omega

theorem sorted3_six3 {a b c : VId} {t : V3} (h : t ∈ six3 (a, b, c)) : sorted3 t = sorted3 (a, b, c) := by
  refine six3_sorted ?_ (sortedGoal_tri _) (sortedGoal_tri _)
  obtain ⟨x, y, z⟩ := t
  exact six3_trans (six3_symm (sorted3_mem a b c)) (six3_trans h (sorted3_mem x y z))

theorem hasTri_six3 {m : Mesh P V T} (hm : ConsistentT m) {a b c : VId} {t : V3} (h : HasTri m (a, b, c))
    (ht : t ∈ six3 (a, b, c)) : HasTri m t := by
  have ro : ∀ {a b c}, HasTri m (a, b, c) → HasTri m (b, c, a) := by
    rintro a b c ⟨w, hw⟩
    refine ⟨w.nfe, ?_⟩
    obtain ⟨t', h3, h4⟩ := Mesh.tri_iff.1 hw
    refine Mesh.tri_iff.2 ⟨t', h3, ?_⟩
    simp only [Tet.tri, Prod.mk.injEq] at h4
    rw [Walker.nfe, t'.tri_nfe, h4.1, h4.2.1, h4.2.2]
  have sw : ∀ {a b c}, HasTri m (a, b, c) → HasTri m (b, a, c) := fun h => hm.hasTri_swap h
  simp only [six3, List.mem_cons, List.not_mem_nil, or_false] at ht
  rcases ht with rfl | rfl | rfl | rfl | rfl | rfl
  · exact h
  · exact ro h
  · exact ro (ro h)
  · exact sw h
  · exact ro (sw h)
  · exact ro (ro (sw h))

theorem present_tri {m : Mesh P V T} (hm : ConsistentT m) (a b c : VId) :
    Present m (.tri (sorted3 (a, b, c))) ↔ HasTri m (a, b, c) := by
  constructor
  · intro h
    exact hasTri_six3 (t := (a, b, c)) hm (show HasTri m ((sorted3 (a, b, c)).1, (sorted3 (a, b, c)).2.1, (sorted3 (a, b, c)).2.2) from h)
      (six3_symm (sorted3_mem a b c))
  · intro h
    exact hasTri_six3 hm h (sorted3_mem a b c)

/-! ## Rings -/

theorem collectRing_eq {m : Mesh P V T} : ∀ (l : List Walker) (it : CircIter Walker), Yields m.edgeRingNext it l →
    ∀ fuel, l.length < fuel → m.collectRing fuel it = some l := by
  intro l
  induction l with
  | nil =>
    intro it h fuel hf
    obtain ⟨k, rfl⟩ : ∃ k, fuel = k + 1 := ⟨fuel - 1, by simp at hf; omega⟩
    obtain ⟨s', hs⟩ := h 1
    simp only [calls, Option.bind_eq_bind, Option.bind_eq_some_iff] at hs
    obtain ⟨⟨r, it'⟩, h1, h2⟩ := hs
    simp at h2
    rw [Mesh.collectRing, h1]
    simp [h2.1]
  | cons w l ih =>
    intro it h fuel hf
    obtain ⟨k, rfl⟩ : ∃ k, fuel = k + 1 := ⟨fuel - 1, by simp at hf; omega⟩
    obtain ⟨s', hs⟩ := h 1
    simp only [calls, Option.bind_eq_bind, Option.bind_eq_some_iff] at hs
    obtain ⟨⟨r, it'⟩, h1, h2⟩ := hs
    simp at h2
    have hy : Yields m.edgeRingNext it' l := by
      intro n
      obtain ⟨s2, hs2⟩ := h (n + 1)
      simp only [calls, h1, Option.bind_eq_bind, Option.bind_some, Option.bind_eq_some_iff] at hs2
      obtain ⟨⟨as, s3⟩, h3, h4⟩ := hs2
      simp only [Option.pure_def, Option.some.injEq, Prod.mk.injEq, List.range_succ_eq_map, List.map_cons] at h4
      refine ⟨s3, ?_⟩
      rw [h3]
      have := (List.cons.inj h4.1).2
      rw [this, List.map_map]
      rfl
    rw [Mesh.collectRing, h1]
    have := ih it' hy k (by simp at hf; omega)
    simp [h2.1, this]

/-- The ring of an edge, with the third vertices. -/
theorem ring_of {m : Mesh P V T} (hm : ConsistentT m) {w : Walker} {x y p q : VId} (hw : m.tet4 w = some (x, y, p, q)) :
    ∃ l thirds, (∀ᶠ fuel in atTop, m.edgeRing fuel w = some (w :: l)) ∧
      RunsThrough m.ringStep w l ∧ (w :: l).mapM m.third = some thirds ∧ thirds.Nodup ∧
      thirds.length = l.length + 1 ∧ ∀ z, z ∈ thirds ↔ HasTri m (x, y, z) := by
  obtain ⟨l, h1, h3, h2, -, h4⟩ := C16_edge_ring hm.toSpec (live_iff.2 ⟨x, y, p, q, hw⟩)
  have he := (tet4_parts hw).2.2.1
  have htri : ∀ u ∈ w :: l, ∃ z, m.third u = some z ∧ m.tri u = some (x, y, z) := by
    intro u hu
    have := (h4 u).1 hu
    obtain ⟨c, d, h5⟩ := edge_tet4 (this.2.trans he)
    have h6 := (tet4_parts h5).2.2.2
    obtain ⟨t, h7, h8⟩ := Mesh.tri_iff.1 h6
    simp only [Tet.tri, Prod.mk.injEq] at h8
    exact ⟨c, by simp [Mesh.third, h7, h8.2.2], h6⟩
  let f : Walker → VId := fun u => (m.third u).getD 0
  have hf : ∀ u ∈ w :: l, m.third u = some (f u) ∧ m.tri u = some (x, y, f u) := by
    intro u hu
    obtain ⟨z, k1, k2⟩ := htri u hu
    have : f u = z := by simp [f, k1]
    exact ⟨this ▸ k1, this ▸ k2⟩
  refine ⟨l, (w :: l).map f, ?_, h2, ?_, ?_, by simp, ?_⟩
  · filter_upwards [eventually_gt_atTop (w :: l).length] with n hn
    exact collectRing_eq _ _ h1 n hn
  · obtain ⟨r, k1, k2⟩ := mapM_all (f := m.third) (w :: l) fun u hu => ⟨_, (hf u hu).1⟩
    rw [k1]
    have : ((w :: l).map m.third) = ((w :: l).map f).map some := by
      rw [List.map_map]
      exact List.map_congr_left fun u hu => (hf u hu).1
    rw [this] at k2
    rw [(List.map_injective_iff.2 (Option.some_injective _)) k2]
  · refine List.Nodup.map_on ?_ h3
    intro u hu u' hu' e
    have k1 := (hf u hu).2
    have k2 := (hf u' hu').2
    rw [← e] at k2
    exact hm.tri_eq k1 k2
  · intro z
    rw [List.mem_map]
    constructor
    · rintro ⟨u, hu, rfl⟩
      exact ⟨u, (hf u hu).2⟩
    · rintro ⟨u, hu⟩
      obtain ⟨d, hd⟩ := tri_tet4 hu
      have hmem := (h4 u).2 ⟨live_iff.2 ⟨_, _, _, _, hd⟩, ((tet4_parts hd).2.2.1).trans he.symm⟩
      refine ⟨u, hmem, ?_⟩
      have := (hf u hmem).2
      rw [hu] at this
      cases this
      rfl

end Tet
