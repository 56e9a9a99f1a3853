import Verif.Proofs.CapFinish

/-!
# Paths and triangulations of polygons
-/

namespace Tet
open Spec
variable {P V T : Type}

theorem path_zip (a : VId) (l : List VId) (b : VId) : (a :: (l ++ [b])).zip (l ++ [b]) = pathEdges a l b := by
  induction l generalizing a with
  | nil => rfl
  | cons x l ih =>
    have := ih x
    simp only [List.cons_append, List.zip_cons_cons, pathEdges] at this ⊢
    rw [this]

theorem path_round (a : VId) (l : List VId) (b z : VId) : (a :: (l ++ [b])).zip (l ++ [b] ++ [z]) = pathEdges a l b ++ [(b, z)] := by
  induction l generalizing a with
  | nil => rfl
  | cons x l ih =>
    have := ih x
    simp only [List.cons_append, List.zip_cons_cons, pathEdges] at this ⊢
    rw [this]

theorem path_length (a : VId) (l : List VId) (b : VId) : (pathEdges a l b).length = l.length + 1 := by
  induction l generalizing a with
  | nil => rfl
  | cons x l ih => simp only [pathEdges, List.length_cons, ih]

theorem path_ne {a b : VId} {l : List VId} (h : (a :: (l ++ [b])).Nodup) {e : VId × VId} (he : e ∈ pathEdges a l b) : e.1 ≠ e.2 := by
  induction l generalizing a with
  | nil =>
    simp only [pathEdges, List.mem_singleton] at he
    subst he
    simpa using h
  | cons x l ih =>
    simp only [pathEdges, List.mem_cons] at he
    rcases he with rfl | he
    · intro (h1 : a = x)
      simp [h1] at h
    · exact ih (List.nodup_cons.1 h).2 he

theorem path_nodup {a b : VId} {l : List VId} (h : (a :: (l ++ [b])).Nodup) : (pathEdges a l b).Nodup := by
  induction l generalizing a with
  | nil => simp [pathEdges]
  | cons x l ih =>
    simp only [pathEdges, List.nodup_cons]
    exact ⟨fun h1 => (List.nodup_cons.1 h).1 (mem_path h1).1, ih (List.nodup_cons.1 h).2⟩

theorem path_rev {a b : VId} {l : List VId} (h : (a :: (l ++ [b])).Nodup) {e : VId × VId} (he : e ∈ pathEdges a l b) :
    (e.2, e.1) ∉ pathEdges a l b := by
  induction l generalizing a with
  | nil =>
    simp only [pathEdges, List.mem_singleton] at he ⊢
    subst he
    intro h1
    rw [Prod.mk.injEq] at h1
    exact path_ne h (l := []) (by simp [pathEdges]) h1.2
  | cons x l ih =>
    have ha := (List.nodup_cons.1 h).1
    simp only [pathEdges, List.mem_cons] at he ⊢
    rcases he with rfl | he
    · rintro (h1 | h1)
      · rw [Prod.mk.injEq] at h1
        exact path_ne h (e := (a, x)) (by simp [pathEdges]) h1.2
      · exact ha (mem_path h1).2
    · rintro (h1 | h1)
      · rw [Prod.mk.injEq] at h1
        exact ha (h1.1 ▸ (mem_path he).2)
      · exact ih (List.nodup_cons.1 h).2 he h1

theorem path_cover (a : VId) (l : List VId) (b : VId) {v : VId} (h : v ∈ a :: (l ++ [b])) : ∃ e ∈ pathEdges a l b, v = e.1 ∨ v = e.2 := by
  induction l generalizing a with
  | nil =>
    refine ⟨(a, b), by simp [pathEdges], ?_⟩
    simpa using h
  | cons x l ih =>
    rcases List.mem_cons.1 h with rfl | h
    · exact ⟨(v, x), by simp [pathEdges], .inl rfl⟩
    · obtain ⟨e, h1, h2⟩ := ih x h
      exact ⟨e, by simp [pathEdges, h1], h2⟩

theorem path_first (a : VId) (l : List VId) (b : VId) : ∃ e ∈ pathEdges a l b, e.1 = a := by
  cases l with
  | nil => exact ⟨(a, b), by simp [pathEdges], rfl⟩
  | cons x l => exact ⟨(a, x), by simp [pathEdges], rfl⟩

theorem path_last (a : VId) (l : List VId) (b : VId) : ∃ e ∈ pathEdges a l b, e.2 = b := by
  induction l generalizing a with
  | nil => exact ⟨(a, b), by simp [pathEdges], rfl⟩
  | cons x l ih =>
    obtain ⟨e, h1, h2⟩ := ih x
    exact ⟨e, by simp [pathEdges, h1], h2⟩

theorem path_next (a : VId) (l : List VId) (b : VId) {e : VId × VId} (he : e ∈ pathEdges a l b) : e.2 = b ∨ ∃ e' ∈ pathEdges a l b, e'.1 = e.2 := by
  induction l generalizing a with
  | nil =>
    simp only [pathEdges, List.mem_singleton] at he
    subst he
    exact .inl rfl
  | cons x l ih =>
    simp only [pathEdges, List.mem_cons] at he ⊢
    rcases he with rfl | he
    · obtain ⟨e, h1, h2⟩ := path_first x l b
      exact .inr ⟨e, .inr h1, h2⟩
    · rcases ih x he with h | ⟨e', h1, h2⟩
      · exact .inl h
      · exact .inr ⟨e', .inr h1, h2⟩

theorem path_prev (a : VId) (l : List VId) (b : VId) {e : VId × VId} (he : e ∈ pathEdges a l b) : e.1 = a ∨ ∃ e' ∈ pathEdges a l b, e'.2 = e.1 := by
  induction l generalizing a with
  | nil =>
    simp only [pathEdges, List.mem_singleton] at he
    subst he
    exact .inl rfl
  | cons x l ih =>
    simp only [pathEdges, List.mem_cons] at he ⊢
    rcases he with rfl | he
    · exact .inl rfl
    · rcases ih x he with h | ⟨e', h1, h2⟩
      · exact .inr ⟨(a, x), .inl rfl, h.symm⟩
      · exact .inr ⟨e', .inr h1, h2⟩

theorem path_chord {a b : VId} {l : List VId} (h : (a :: (l ++ [b])).Nodup) (hab : (a, b) ∈ pathEdges a l b) : l = [] := by
  cases l with
  | nil => rfl
  | cons x l =>
    simp only [pathEdges, List.mem_cons, Prod.mk.injEq, true_and] at hab
    rcases hab with rfl | hab
    · simp at h
    · exact absurd (mem_path hab).1 (List.nodup_cons.1 h).1

/-- The triangles have different corners. -/
def Diff (r r' : V3) : Prop := ∃ v, ¬ (v ∈ list3 r ↔ v ∈ list3 r')

theorem Diff.symm {r r' : V3} (h : Diff r r') : Diff r' r := by
  obtain ⟨v, h⟩ := h
  exact ⟨v, fun h' => h h'.symm⟩

theorem Diff.rot {r r' s s' : V3} (h : Diff r r') (h1 : Rotation r s) (h2 : Rotation r' s') : Diff s s' := by
  obtain ⟨v, h⟩ := h
  exact ⟨v, by rwa [rotation_mem h1, rotation_mem h2]⟩

/-- What is known about the triangles of a polygon. -/
structure Pieces (a : VId) (l : List VId) (b : VId) (s : List V3) : Prop where
  nd : ∀ r ∈ s, (list3 r).Nodup
  diff : s.Pairwise Diff
  back : ∀ r ∈ s, ∃ e ∈ triSides [r], e ∉ pathEdges a l b
  cover : ∀ v ∈ a :: (l ++ [b]), v = a ∨ v = b ∨ ∃ r ∈ s, v ∈ list3 r
  len : s.length = l.length
  corner : ∀ r ∈ s, ∀ v ∈ list3 r, v ∈ a :: (l ++ [b])

theorem ne_of_side {r : V3} (h : (list3 r).Nodup) {e : VId × VId} (he : e ∈ triSides [r]) : e.1 ≠ e.2 := by
  simp only [triSides, List.flatMap_cons, List.flatMap_nil, List.append_nil, List.mem_cons, List.not_mem_nil, or_false] at he
  simp only [list3, List.nodup_cons, List.mem_cons, List.not_mem_nil, or_false, not_or] at h
  rcases he with rfl | rfl | rfl
  · exact h.1.1
  · exact h.2.1
  · exact Ne.symm h.1.2

theorem triangulated_pieces {a b l s} (h : Triangulated a l b s) (hnd : (a :: (l ++ [b])).Nodup) : Pieces a l b s := by
  induction h with
  | side a b =>
    refine ⟨by simp, List.Pairwise.nil, by simp, fun v hv => ?_, rfl, by simp⟩
    simp only [List.nil_append, List.mem_cons, List.not_mem_nil, or_false] at hv
    tauto
  | @split a l₁ c l₂ b s t hs ht ih1 ih2 =>
    obtain ⟨z, hz⟩ : ∃ z, z ∉ a :: ((l₁ ++ c :: l₂) ++ [b]) := Infinite.exists_notMem_finset (a :: ((l₁ ++ c :: l₂) ++ [b])).toFinset |>.imp
      fun z hz => by rwa [List.mem_toFinset] at hz
    have cut := cut_of hnd hz hz
    have p1 := ih1 cut.nd1
    have p2 := ih2 cut.nd2
    have one : ∀ {r : V3}, (list3 r).Nodup → (∀ v ∈ list3 r, v = c) → False := by
      intro r h1 h2
      have h3 := h2 r.1 (by simp [list3])
      have h4 := h2 r.2.1 (by simp [list3])
      simp [list3, h3, h4] at h1
    have all : ∀ r ∈ (a, c, b) :: (s ++ t), (list3 r).Nodup := by
      intro r hr
      simp only [List.mem_cons, List.mem_append] at hr
      rcases hr with rfl | hr | hr
      · simp [list3, cut.hac, cut.hab, cut.hcb]
      · exact p1.nd r hr
      · exact p2.nd r hr
    refine ⟨all, ?_, ?_, ?_, ?_, (Triangulated.split hs ht).corner⟩
    · rw [List.pairwise_cons, List.pairwise_append]
      refine ⟨fun r hr => ?_, p1.diff, p2.diff, fun r hr r' hr' => ?_⟩
      · rcases List.mem_append.1 hr with hr | hr
        · exact ⟨b, fun h => cut.bL (p1.corner r hr b (h.1 (by simp [list3])))⟩
        · exact ⟨a, fun h => cut.aR (p2.corner r hr a (h.1 (by simp [list3])))⟩
      · by_contra hcon
        simp only [Diff, not_exists, not_not] at hcon
        exact one (p1.nd r hr) fun v hv => cut.disj v (p1.corner r hr v hv) (p2.corner r' hr' v ((hcon v).1 hv))
    · intro r hr
      simp only [List.mem_cons, List.mem_append] at hr
      rw [trail_append]
      have mem3 : ∀ {r : V3} {e}, e ∈ triSides [r] → e.1 ∈ list3 r ∧ e.2 ∈ list3 r := by
        intro r e he
        obtain ⟨r', h1, h2⟩ := triSides_corner he
        rw [List.mem_singleton] at h1
        rwa [h1] at h2
      rcases hr with rfl | hr | hr
      · refine ⟨(b, a), by simp [triSides], ?_⟩
        rw [← trail_append]
        exact back_path hnd b
      · obtain ⟨e, h1, h2⟩ := p1.back r hr
        refine ⟨e, h1, fun h3 => ?_⟩
        rcases List.mem_append.1 h3 with h3 | h3
        · exact h2 h3
        · have h4 := mem3 h1
          exact ne_of_side (p1.nd r hr) h1 ((cut.disj _ (p1.corner r hr _ h4.1) (mem_path h3).1).trans
            (cut.disj _ (p1.corner r hr _ h4.2) (mem_path h3).2).symm)
      · obtain ⟨e, h1, h2⟩ := p2.back r hr
        refine ⟨e, h1, fun h3 => ?_⟩
        rcases List.mem_append.1 h3 with h3 | h3
        · have h4 := mem3 h1
          exact ne_of_side (p2.nd r hr) h1 ((cut.disj _ (mem_path h3).1 (p2.corner r hr _ h4.1)).trans
            (cut.disj _ (mem_path h3).2 (p2.corner r hr _ h4.2)).symm)
        · exact h2 h3
    · intro v hv
      have : v ∈ a :: (l₁ ++ [c]) ∨ v ∈ c :: (l₂ ++ [b]) := by
        simp only [List.mem_cons, List.mem_append, List.not_mem_nil, or_false] at hv ⊢
        tauto
      rcases this with h | h
      · rcases p1.cover v h with h | h | ⟨r, h1, h2⟩
        · exact .inl h
        · exact .inr (.inr ⟨(a, c, b), by simp, by simp [list3, h]⟩)
        · exact .inr (.inr ⟨r, by simp [h1], h2⟩)
      · rcases p2.cover v h with h | h | ⟨r, h1, h2⟩
        · exact .inr (.inr ⟨(a, c, b), by simp, by simp [list3, h]⟩)
        · exact .inr (.inl h)
        · exact .inr (.inr ⟨r, by simp [h1], h2⟩)
    · simp only [List.length_cons, List.length_append, p1.len, p2.len]
      omega

theorem rot_symm {r s : V3} (h : Rotation r s) : Rotation s r := by
  obtain ⟨a, b, c⟩ := r
  rcases h with rfl | rfl | rfl
  · exact .inl rfl
  · exact .inr (.inr rfl)
  · exact .inr (.inl rfl)

theorem side_rot {r s : V3} (h : Rotation r s) {e : VId × VId} (he : e ∈ triSides [s]) : e ∈ triSides [r] := by
  obtain ⟨a, b, c⟩ := r
  simp only [triSides, List.flatMap_cons, List.flatMap_nil, List.append_nil, List.mem_cons, List.not_mem_nil, or_false] at he ⊢
  rcases h with rfl | rfl | rfl <;> tauto

theorem mem_sides {s : List V3} {e : VId × VId} : e ∈ triSides s ↔ ∃ r ∈ s, e ∈ triSides [r] := by
  simp only [triSides, List.mem_flatMap, List.flatMap_cons, List.flatMap_nil, List.append_nil]

theorem forall₂_right {s s' : List V3} (h : List.Forall₂ Rotation s s') : ∀ r' ∈ s', ∃ r ∈ s, Rotation r r' := by
  induction h with
  | nil => simp
  | cons h _ ih =>
    intro r' hr'
    rcases List.mem_cons.1 hr' with rfl | hr'
    · exact ⟨_, by simp, h⟩
    · obtain ⟨r, h4, h5⟩ := ih r' hr'
      exact ⟨r, by simp [h4], h5⟩

theorem forall₂_left {s s' : List V3} (h : List.Forall₂ Rotation s s') : ∀ r ∈ s, ∃ r' ∈ s', Rotation r r' := by
  induction h with
  | nil => simp
  | cons h _ ih =>
    intro r hr
    rcases List.mem_cons.1 hr with rfl | hr
    · exact ⟨_, by simp, h⟩
    · obtain ⟨r', h4, h5⟩ := ih r hr
      exact ⟨r', by simp [h4], h5⟩

theorem forall₂_diff {s s' : List V3} (h : List.Forall₂ Rotation s s') (hd : s.Pairwise Diff) : s'.Pairwise Diff := by
  induction h with
  | nil => exact List.Pairwise.nil
  | @cons r r' s s' h h' ih =>
    rw [List.pairwise_cons] at hd ⊢
    refine ⟨fun q hq => ?_, ih hd.2⟩
    obtain ⟨q', h4, h5⟩ := forall₂_right h' q hq
    exact (hd.1 q' h4).rot h h5

/-- The given triangles are those of a triangulation up to order and rotations. -/
theorem fills_pieces {a b l tris} (h : Fills a l b tris) (hnd : (a :: (l ++ [b])).Nodup) : ∃ s, Triangulated a l b s ∧ Pieces a l b s ∧
    Pieces a l b tris ∧ (∀ r ∈ s, ∃ r' ∈ tris, Rotation r r') ∧ ∀ r' ∈ tris, ∃ r ∈ s, Rotation r r' := by
  obtain ⟨s, s', h1, h2, h3⟩ := h
  have p := triangulated_pieces h1 hnd
  have right : ∀ r' ∈ tris, ∃ r ∈ s, Rotation r r' := by
    intro r' hr'
    obtain ⟨r, h4, h5⟩ := forall₂_right h3 r' hr'
    exact ⟨r, h2.mem_iff.1 h4, h5⟩
  have left : ∀ r ∈ s, ∃ r' ∈ tris, Rotation r r' := fun r hr => forall₂_left h3 r (h2.mem_iff.2 hr)
  refine ⟨s, h1, p, ⟨?_, ?_, ?_, ?_, ?_, ?_⟩, left, right⟩
  · intro r hr
    obtain ⟨r', h4, h5⟩ := right r hr
    have := p.nd r' h4
    obtain ⟨x, y, z⟩ := r'
    simp only [list3, List.nodup_cons, List.mem_cons, List.not_mem_nil, or_false, not_or] at this ⊢
    rcases h5 with rfl | rfl | rfl
    · exact this
    · exact ⟨⟨this.2.1, Ne.symm this.1.1⟩, Ne.symm this.1.2, by simp, List.nodup_nil⟩
    · exact ⟨⟨Ne.symm this.1.2, Ne.symm this.2.1⟩, this.1.1, by simp, List.nodup_nil⟩
  · exact forall₂_diff h3 ((h2.pairwise_iff (fun {_ _} h => Diff.symm h)).2 p.diff)
  · intro r hr
    obtain ⟨r', h4, h5⟩ := right r hr
    obtain ⟨e, h6, h7⟩ := p.back r' h4
    exact ⟨e, side_rot (rot_symm h5) h6, h7⟩
  · intro v hv
    rcases p.cover v hv with h | h | ⟨r, h4, h5⟩
    · exact .inl h
    · exact .inr (.inl h)
    · obtain ⟨r', h6, h7⟩ := left r h4
      exact .inr (.inr ⟨r', h6, (rotation_mem h7 v).2 h5⟩)
  · rw [← h3.length_eq, h2.length_eq, p.len]
  · intro r hr v hv
    obtain ⟨r', h4, h5⟩ := right r hr
    exact p.corner r' h4 v ((rotation_mem h5 v).1 hv)

theorem cone_rot {vt vb : VId} {s s' : List V3} (h : ∀ r ∈ s, ∃ r' ∈ s', Rotation r r') {p : V4} (hp : p ∈ coneTets vt vb s) :
    ∃ p' ∈ coneTets vt vb s', SameTet p' p := by
  obtain ⟨r, hr, h1⟩ := mem_cones.1 hp
  obtain ⟨r', hr', h2⟩ := h r hr
  obtain ⟨a, b, c⟩ := r
  rcases h1 with rfl | rfl
  · exact ⟨_, mem_cones.2 ⟨r', hr', .inl rfl⟩, by rcases h2 with rfl | rfl | rfl <;> exact mem_twelve.1 (by simp [twelve])⟩
  · exact ⟨_, mem_cones.2 ⟨r', hr', .inr rfl⟩, by rcases h2 with rfl | rfl | rfl <;> exact mem_twelve.1 (by simp [twelve])⟩

theorem Replaces.congr {m m' : Mesh P V T} {old new new' : List V4} (h : Replaces m m' old new) (h1 : ∀ p ∈ new, ∃ p' ∈ new', SameTet p' p)
    (h2 : ∀ p ∈ new', ∃ p' ∈ new, SameTet p' p) : Replaces m m' old new' := by
  refine ⟨h.1, fun q => (h.2 q).trans (or_congr_right ⟨?_, ?_⟩)⟩
  · rintro ⟨p, hp, hs⟩
    obtain ⟨p', h3, h4⟩ := h1 p hp
    exact ⟨p', h3, SameTet.trans' h4 hs⟩
  · rintro ⟨p, hp, hs⟩
    obtain ⟨p', h3, h4⟩ := h2 p hp
    exact ⟨p', h3, SameTet.trans' h4 hs⟩

theorem cone_mem {vt vb : VId} {r : V3} {p : V4} (hp : p = (r.2.1, r.1, r.2.2, vt) ∨ p = (r.1, r.2.1, r.2.2, vb)) :
    ∃ y, (y = vt ∨ y = vb) ∧ ∀ v, v ∈ list4 p ↔ v ∈ list3 r ∨ v = y := by
  rcases hp with rfl | rfl
  · refine ⟨vt, .inl rfl, fun v => ?_⟩
    simp only [list3, list4, List.mem_cons, List.not_mem_nil, or_false]
    tauto
  · refine ⟨vb, .inr rfl, fun v => ?_⟩
    simp only [list3, list4, List.mem_cons, List.not_mem_nil, or_false]
    tauto

/-- The tets over and under different triangles are different. -/
theorem cones_pairwise {vt vb : VId} (hvv : vt ≠ vb) {s : List V3} (hd : s.Pairwise Diff) (h1 : ∀ r ∈ s, vt ∉ list3 r) (h2 : ∀ r ∈ s, vb ∉ list3 r) :
    (coneTets vt vb s).Pairwise fun p q => ¬ SameTet p q := by
  have key : ∀ {r r' : V3} {p q : V4}, vt ∉ list3 r → vb ∉ list3 r → vt ∉ list3 r' → vb ∉ list3 r' →
      (p = (r.2.1, r.1, r.2.2, vt) ∨ p = (r.1, r.2.1, r.2.2, vb)) → (q = (r'.2.1, r'.1, r'.2.2, vt) ∨ q = (r'.1, r'.2.1, r'.2.2, vb)) →
      Diff r r' → ¬ SameTet p q := by
    rintro r r' p q n1 n2 n3 n4 hp hq ⟨v, hv⟩ hs
    obtain ⟨y, hy, h3⟩ := cone_mem hp
    obtain ⟨z, hz, h4⟩ := cone_mem hq
    have hm : ∀ v, (v ∈ list3 r ∨ v = y) ↔ (v ∈ list3 r' ∨ v = z) := fun v => by rw [← h3, ← h4]; exact SameTet.mem hs v
    have a1 : y ∉ list3 r := by rcases hy with rfl | rfl <;> assumption
    have a2 : y ∉ list3 r' := by rcases hy with rfl | rfl <;> assumption
    have a3 : y = z := ((hm y).1 (.inr rfl)).resolve_left a2
    subst a3
    refine hv ⟨fun h => ((hm v).1 (.inl h)).resolve_right fun h' => a1 (h' ▸ h), fun h => ((hm v).2 (.inl h)).resolve_right fun h' => a2 (h' ▸ h)⟩
  have own : ∀ r ∈ s, ¬ SameTet (r.2.1, r.1, r.2.2, vt) (r.1, r.2.1, r.2.2, vb) := by
    intro r hr hs
    have := (SameTet.mem hs vt).1 (by simp [list4])
    have n1 := h1 r hr
    simp only [list3, list4, List.mem_cons, List.not_mem_nil, or_false, not_or] at this n1
    tauto
  induction s with
  | nil => exact List.Pairwise.nil
  | cons r s ih =>
    rw [List.pairwise_cons] at hd
    have e1 : coneTets vt vb (r :: s) = (r.2.1, r.1, r.2.2, vt) :: (r.1, r.2.1, r.2.2, vb) :: coneTets vt vb s := rfl
    have far : ∀ p, (p = (r.2.1, r.1, r.2.2, vt) ∨ p = (r.1, r.2.1, r.2.2, vb)) → ∀ q ∈ coneTets vt vb s, ¬ SameTet p q := by
      intro p hp q hq
      obtain ⟨r', h3, h4⟩ := mem_cones.1 hq
      exact key (h1 r (by simp)) (h2 r (by simp)) (h1 r' (by simp [h3])) (h2 r' (by simp [h3])) hp h4 (hd.1 r' h3)
    rw [e1, List.pairwise_cons, List.pairwise_cons]
    refine ⟨fun q hq => ?_, far _ (.inr rfl), ih hd.2 (fun r' h => h1 r' (by simp [h])) (fun r' h => h2 r' (by simp [h]))
      (fun r' h => own r' (by simp [h]))⟩
    rcases List.mem_cons.1 hq with rfl | hq
    · exact own r (by simp)
    · exact far _ (.inl rfl) q hq

end Tet
