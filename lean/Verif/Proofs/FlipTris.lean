import Verif.Props.FlipLaws

/-!
# The triangles before and after a flip
-/

namespace Tet
open Spec
variable {P V T : Type}

/-- The triangle seen by the code `c` of a tet with the vertices `p`. -/
def face3 {α : Type} (p : α × α × α × α) (c : Code) : α × α × α :=
  (quad p (perms c 0), quad p (perms c 1), quad p (perms c 2))

/-- All oriented triangles of the tets, in all rotations. -/
def faces3 {α : Type} (l : List (α × α × α × α)) : List (α × α × α) :=
  l.flatMap fun p => (List.finRange 12).map (face3 p)

def vmap4 {α β : Type} (v : α → β) (p : α × α × α × α) : β × β × β × β := (v p.1, v p.2.1, v p.2.2.1, v p.2.2.2)
def vmap3 {α β : Type} (v : α → β) (p : α × α × α) : β × β × β := (v p.1, v p.2.1, v p.2.2)

theorem face3_map {α β : Type} (v : α → β) (p : α × α × α × α) (c : Code) : face3 (vmap4 v p) c = vmap3 v (face3 p c) := by
  have : ∀ i, quad (vmap4 v p) i = v (quad p i) := by
    intro i
    obtain ⟨a, b, c, d⟩ := p
    rcases fin4 i with rfl | rfl | rfl | rfl <;> rfl
  simp only [face3, vmap3, this]

theorem mem_faces3 {α : Type} {l : List (α × α × α × α)} {s : α × α × α} :
    s ∈ faces3 l ↔ ∃ p ∈ l, ∃ c, face3 p c = s := by
  simp [faces3]

theorem faces3_map {α β : Type} (v : α → β) (l : List (α × α × α × α)) :
    faces3 (l.map (vmap4 v)) = (faces3 l).map (vmap3 v) := by
  simp only [faces3, List.flatMap_map, List.map_flatMap, List.map_map]
  congr 1

theorem vmap3_inj {α β : Type} {v : α → β} (hv : Function.Injective v) : Function.Injective (vmap3 v) := by
  rintro ⟨a, b, c⟩ ⟨a', b', c'⟩ h
  simp only [vmap3, Prod.mk.injEq] at h
  rw [hv h.1, hv h.2.1, hv h.2.2]

theorem mem_vmap3 {α β : Type} {v : α → β} (hv : Function.Injective v) {l : List (α × α × α)} {s} :
    vmap3 v s ∈ l.map (vmap3 v) ↔ s ∈ l := by
  rw [List.mem_map]
  exact ⟨fun ⟨x, h1, h2⟩ => vmap3_inj hv h2 ▸ h1, fun h => ⟨s, h, rfl⟩⟩

theorem sameTet_tri {p : V4} {a b c d : VId} (h : SameTet p (a, b, c, d)) : ∃ e, face3 p e = (a, b, c) := by
  obtain ⟨e, he⟩ := sameTet_iff.1 h
  simp only [Prod.mk.injEq] at he
  exact ⟨e, by simp [face3, he]⟩

theorem hasTri_of_face3 {m : Mesh P V T} {p : V4} (h : HasTet m p) (c : Code) : HasTri m (face3 p c) :=
  hasTri_iff.2 ⟨quad p (perms c 3), HasTet.same h (sameTet_code c rfl)⟩

theorem ConsistentT.tri_tet {m : Mesh P V T} (hm : ConsistentT m) {a b c d d' : VId} (h : HasTet m (a, b, c, d))
    (h' : HasTet m (a, b, c, d')) : d = d' := by
  obtain ⟨w, hw⟩ := h
  obtain ⟨w', hw'⟩ := h'
  obtain ⟨t, h1, h2⟩ := Mesh.tet4_iff.1 hw
  obtain ⟨t', h1', h2'⟩ := Mesh.tet4_iff.1 hw'
  simp only [Tet.tet, Prod.mk.injEq] at h2 h2'
  obtain ⟨h5, h6⟩ := hm.tunique _ _ w.edge _ _ w'.edge h1 h1' (by simp [Tet.tri, h2, h2'])
  have : w' = w := by cases w; cases w'; simp only at h5 h6; rw [h5, h6]
  rw [this, hw] at hw'
  simpa using hw'

theorem rotTri {m : Mesh P V T} {a b c : VId} (h : HasTri m (a, b, c)) : HasTri m (b, c, a) := by
  obtain ⟨d, hd⟩ := hasTri_iff.1 h
  have h1 : SameTet (a, b, c, d) (b, c, a, d) := sameTet_code 7 rfl
  exact hasTri_iff.2 ⟨d, HasTet.same hd h1⟩

/-- The triangles after tets have been replaced. -/
theorem Spec.Replaces.hasTri {m m' : Mesh P V T} (hm : ConsistentT m) {old new : List V4} (h : Replaces m m' old new)
    (s : V3) : HasTri m' s ↔ (HasTri m s ∧ (s ∈ faces3 old → s ∈ faces3 new)) ∨ s ∈ faces3 new := by
  obtain ⟨a, b, c⟩ := s
  constructor
  · intro hs
    obtain ⟨d, hd⟩ := hasTri_iff.1 hs
    rcases (h.2 _).1 hd with ⟨h1, h2⟩ | ⟨p, hp, hpq⟩
    · left
      refine ⟨hasTri_iff.2 ⟨d, h1⟩, fun ho => ?_⟩
      obtain ⟨p, hp, e, he⟩ := mem_faces3.1 ho
      have h3 := h.1 p hp
      have h4 : SameTet p (face3 p e |>.1, (face3 p e).2.1, (face3 p e).2.2, quad p (perms e 3)) := sameTet_code e rfl
      rw [he] at h4
      obtain rfl := hm.tri_tet h1 (HasTet.same h3 h4)
      exact absurd h4 (h2 p hp)
    · right
      obtain ⟨e, he⟩ := sameTet_tri hpq
      exact mem_faces3.2 ⟨p, hp, e, he⟩
  · have key : (a, b, c) ∈ faces3 new → HasTri m' (a, b, c) := by
      intro hn
      obtain ⟨p, hp, e, he⟩ := mem_faces3.1 hn
      rw [← he]
      exact hasTri_of_face3 ((h.2 p).2 (.inr ⟨p, hp, sameTet_code 3 rfl⟩)) e
    rintro (⟨h1, h2⟩ | hn)
    · obtain ⟨d, hd⟩ := hasTri_iff.1 h1
      by_cases ho : ∃ p ∈ old, SameTet p (a, b, c, d)
      · obtain ⟨p, hp, hpq⟩ := ho
        obtain ⟨e, he⟩ := sameTet_tri hpq
        exact key (h2 (mem_faces3.2 ⟨p, hp, e, he⟩))
      · push Not at ho
        exact hasTri_iff.2 ⟨d, (h.2 _).2 (.inl ⟨hd, ho⟩)⟩
    · exact key hn

end Tet
