import Verif.Spec.Mesh
import Verif.Proofs.Walker

/-!
# Replacing a set of tets by another one

All flips replace some tets `C` by tets `N` with the same outer faces.  This file works
with the lookup function of the tets only.
-/

namespace Tet
open Spec

variable {T : Type}

abbrev TMap (T : Type) := TId → Option (Tet T)

namespace Tet

theorem adj_nfe (t : Tet T) (e : Code) : t.adj (nfe e) = (t.adj e).pfe := by
  have h : ∀ e, (div4 e = 0 ∧ div4 (nfe e) = 1) ∨ (div4 e = 1 ∧ div4 (nfe e) = 2) ∨
      (div4 e = 2 ∧ div4 (nfe e) = 0) := by decide
  rcases h e with h | h | h <;>
    simp [adj, turn, face_nfe, h, Walker.nfe, Walker.pfe, _root_.Tet.pfe_pfe, _root_.Tet.pfe_nfe]

theorem adj_pfe (t : Tet T) (e : Code) : t.adj (pfe e) = (t.adj e).nfe := by
  have := t.adj_nfe (pfe e)
  rw [nfe_pfe] at this
  rw [this]
  simp [Walker.nfe, Walker.pfe, _root_.Tet.nfe_pfe]

theorem adj_tet (t : Tet T) (e : Code) : (t.adj e).tet = (t.opp (face e)).tet := by
  simp only [adj, turn]
  split <;> rfl

theorem face_adj (t : Tet T) (e : Code) : face (t.adj e).edge = face (t.opp (face e)).edge := by
  simp only [adj, turn]
  split <;> simp [Walker.nfe, Walker.pfe, face_nfe, face_pfe]

theorem first_eq (t : Tet T) (e) : t.first e = t.vertices (perms e 0) := by
  rw [← firstIdx_eq]; rfl
theorem second_eq (t : Tet T) (e) : t.second e = t.vertices (perms e 1) := by
  rw [← secondIdx_eq]; rfl
theorem third_eq (t : Tet T) (e) : t.third e = t.vertices (perms e 2) := by
  rw [← thirdIdx_eq]; rfl
theorem fourth_eq (t : Tet T) (e) : t.fourth e = t.vertices (perms e 3) := by
  rw [← face_eq]; rfl

end Tet

/-- Adjacency is right: see `Spec.Consistent.adjacent`. -/
def AdjT (M : TMap T) : Prop :=
  ∀ k t e, M k = some t → ∃ t', M (t.adj e).tet = some t' ∧ t'.adj (t.adj e).edge = ⟨k, e⟩ ∧
    t'.tri (t.adj e).edge = (t.second e, t.first e, t.third e)

def DistinctT (M : TMap T) : Prop := ∀ k t, M k = some t → Function.Injective t.vertices

def LocksT (M : TMap T) : Prop :=
  ∀ k t t' e, M k = some t → M (t.adj e).tet = some t' →
    t'.flags.locked (face (t.adj e).edge) = t.flags.locked (face e)

def TriUniqueT (M : TMap T) : Prop :=
  ∀ k t e k' t' e', M k = some t → M k' = some t' → t'.tri e' = t.tri e → k' = k ∧ e' = e

/-- Turning around the edge. -/
inductive RingT (M : TMap T) : Walker → Walker → Prop
  | refl (a) : RingT M a a
  | step {a b t} : RingT M a b → M b.tet = some t → RingT M a (t.adj (twin b.edge))
  | back {a c t} : RingT M a (t.adj (twin c.edge)) → M c.tet = some t → RingT M a c

theorem RingT.trans {M : TMap T} {a b c} (h : RingT M a b) (h' : RingT M b c) : RingT M a c := by
  induction h' with
  | refl => exact h
  | step _ hm ih => exact .step ih hm
  | back _ hm ih => exact .back ih hm

theorem RingT.symm {M : TMap T} {a b} (h : RingT M a b) : RingT M b a := by
  induction h with
  | refl => exact .refl _
  | @step b t _ hm ih => exact RingT.trans (.back (.refl _) hm) ih
  | @back c t _ hm ih => exact RingT.trans (.step (.refl _) hm) ih

def OneRingT (M : TMap T) : Prop :=
  ∀ k t e k' t' e', M k = some t → M k' = some t' → t'.edge e' = t.edge e →
    RingT M ⟨k, e⟩ ⟨k', e'⟩

/-! ## The replacement -/

/-- Where the outer faces of the old tets went: face `f` of tet `k` is now a face of
`(A k f).1`, and the walker codes change by `permInv (A k f).2`. -/
def moved (A : TId → Fin 4 → TId × Code) (x : Walker) : Walker :=
  ⟨(A x.tet (face x.edge)).1, permInv (A x.tet (face x.edge)).2 x.edge⟩

theorem moved_nfe (A) (x : Walker) : moved A x.nfe = (moved A x).nfe := by
  simp [moved, Walker.nfe, face_nfe, permInv_nfe]

theorem moved_pfe (A) (x : Walker) : moved A x.pfe = (moved A x).pfe := by
  simp [moved, Walker.pfe, face_pfe, permInv_pfe]

theorem moved_turn (A) (e : Code) (x : Walker) : moved A (Tet.turn e x) = Tet.turn e (moved A x) := by
  simp only [Tet.turn]
  split
  · rfl
  · exact moved_pfe A x
  · exact moved_nfe A x

/-- A tet outside the replaced region, after the replacement. -/
def patch (C : List TId) (A : TId → Fin 4 → TId × Code) (t : Tet T) : Tet T :=
  { t with opp := fun f => if (t.opp f).tet ∈ C then moved A (t.opp f) else t.opp f }

theorem patch_adj (C : List TId) (A) (t : Tet T) (e : Code) :
    (patch C A t).adj e = if (t.adj e).tet ∈ C then moved A (t.adj e) else t.adj e := by
  rw [Tet.adj_tet]
  simp only [patch, Tet.adj]
  split
  · rw [moved_turn]
  · rfl

/-- The tets `C` have been replaced by the tets `N`. -/
structure Surgery (M M' : TMap T) (C N : List TId) (A : TId → Fin 4 → TId × Code) : Prop where
  out : ∀ k, k ∉ C → k ∉ N → M' k = (M k).map (patch C A)
  fresh : ∀ k ∈ N, k ∉ C → M k = none
  dead : ∀ k ∈ C, k ∉ N → M' k = none
  /-- outer faces: same triangle, same neighbour -/
  outer : ∀ x t, x.tet ∈ C → M x.tet = some t → (t.adj x.edge).tet ∉ C →
    (moved A x).tet ∈ N ∧ ∃ t', M' (moved A x).tet = some t' ∧
      t'.adj (moved A x).edge = t.adj x.edge ∧ t'.tri (moved A x).edge = t.tri x.edge
  /-- the faces of the new tets are outer faces, or glued to each other -/
  inner : ∀ y t, y.tet ∈ N → M' y.tet = some t →
    (∃ x t0, x.tet ∈ C ∧ M x.tet = some t0 ∧ (t0.adj x.edge).tet ∉ C ∧ y = moved A x) ∨
    ((t.adj y.edge).tet ∈ N ∧ ∃ t', M' (t.adj y.edge).tet = some t' ∧
      t'.adj (t.adj y.edge).edge = y ∧
      t'.tri (t.adj y.edge).edge = (t.second y.edge, t.first y.edge, t.third y.edge))

namespace Surgery
variable {M M' : TMap T} {C N : List TId} {A : TId → Fin 4 → TId × Code}

theorem old (h : Surgery M M' C N A) {k t'} (hN : k ∉ N) (ht : M' k = some t') :
    k ∉ C ∧ ∃ t, M k = some t ∧ t' = patch C A t := by
  by_cases hC : k ∈ C
  · rw [h.dead k hC hN] at ht; simp at ht
  · rw [h.out k hC hN] at ht
    simp only [Option.map_eq_some_iff] at ht
    obtain ⟨t, h1, h2⟩ := ht
    exact ⟨hC, t, h1, h2.symm⟩

theorem new (h : Surgery M M' C N A) {k t} (hC : k ∉ C) (ht : M k = some t) :
    k ∉ N ∧ M' k = some (patch C A t) := by
  have hN : k ∉ N := fun hN => by rw [h.fresh k hN hC] at ht; simp at ht
  exact ⟨hN, by rw [h.out k hC hN, ht]; rfl⟩

theorem adjT (h : Surgery M M' C N A) (hM : AdjT M) : AdjT M' := by
  intro k t' e ht'
  by_cases hN : k ∈ N
  · rcases h.inner ⟨k, e⟩ t' hN ht' with ⟨x, t0, hxC, hx, hxo, hy⟩ | ⟨-, t2, h2, h3, h4⟩
    · obtain ⟨-, t2, h2, h3, h4⟩ := h.outer x t0 hxC hx hxo
      rw [← hy] at h2 h3 h4
      rw [ht'] at h2
      cases h2
      simp only at h3 h4
      obtain ⟨u, hu, hua, hut⟩ := hM _ _ x.edge hx
      obtain ⟨-, hu'⟩ := h.new hxo hu
      rw [h3]
      refine ⟨_, hu', ?_, ?_⟩
      · rw [patch_adj, hua]
        simp only [hxC, if_true]
        exact hy.symm
      · change u.tri _ = _
        rw [hut]
        simp only [Tet.tri, Prod.mk.injEq] at h4
        rw [h4.1, h4.2.1, h4.2.2]
    · exact ⟨t2, h2, h3, h4⟩
  · obtain ⟨hC, t, ht, rfl⟩ := h.old hN ht'
    obtain ⟨u, hu, hua, hut⟩ := hM _ _ e ht
    rw [patch_adj]
    by_cases hc : (t.adj e).tet ∈ C
    · simp only [hc, if_true]
      have := h.outer (t.adj e) u hc hu (by rw [hua]; exact hC)
      obtain ⟨-, t2, h2, h3, h4⟩ := this
      exact ⟨t2, h2, by rw [h3, hua], by rw [h4, hut]; rfl⟩
    · simp only [hc, if_false]
      obtain ⟨-, hu'⟩ := h.new hc hu
      refine ⟨_, hu', ?_, hut⟩
      rw [patch_adj, hua]
      simp [hC]

theorem distinctT (h : Surgery M M' C N A) (hM : DistinctT M)
    (hN : ∀ k ∈ N, ∀ t, M' k = some t → Function.Injective t.vertices) : DistinctT M' := by
  intro k t' ht'
  by_cases hk : k ∈ N
  · exact hN k hk t' ht'
  · obtain ⟨hC, t, ht, rfl⟩ := h.old hk ht'
    exact hM k t ht

theorem locksT (h : Surgery M M' C N A) (hA : AdjT M) (hM : LocksT M)
    (ho : ∀ x t t', x.tet ∈ C → M x.tet = some t → (t.adj x.edge).tet ∉ C →
      M' (moved A x).tet = some t' →
      t'.flags.locked (face (moved A x).edge) = t.flags.locked (face x.edge))
    (hi : ∀ (y : Walker) t t', y.tet ∈ N → M' y.tet = some t → (t.adj y.edge).tet ∈ N →
      M' (t.adj y.edge).tet = some t' →
      t'.flags.locked (face (t.adj y.edge).edge) = t.flags.locked (face y.edge)) :
    LocksT M' := by
  intro k t' u' e ht' hu'
  by_cases hN : k ∈ N
  · rcases h.inner ⟨k, e⟩ t' hN ht' with ⟨x, t0, hxC, hx, hxo, hy⟩ | ⟨h1, -⟩
    · obtain ⟨-, t2, h2, h3, -⟩ := h.outer x t0 hxC hx hxo
      have hl := ho x t0 t2 hxC hx hxo h2
      rw [← hy] at h2 h3 hl
      rw [ht'] at h2
      cases h2
      simp only at h3 hl
      obtain ⟨u, hu, -, -⟩ := hA _ _ x.edge hx
      obtain ⟨-, hu2⟩ := h.new hxo hu
      rw [h3] at hu' ⊢
      rw [hu2] at hu'
      cases hu'
      rw [hl]
      have := hM _ _ _ x.edge hx hu
      exact this
    · exact hi ⟨k, e⟩ t' u' hN ht' h1 hu'
  · obtain ⟨hC, t, ht, rfl⟩ := h.old hN ht'
    obtain ⟨u, hu, hua, -⟩ := hA _ _ e ht
    have hm := hM _ _ _ e ht hu
    rw [patch_adj] at hu' ⊢
    by_cases hc : (t.adj e).tet ∈ C
    · simp only [hc, if_true] at hu' ⊢
      rw [ho (t.adj e) u u' hc hu (by rw [hua]; exact hC) hu']
      exact hm
    · simp only [hc, if_false] at hu' ⊢
      obtain ⟨-, hu2⟩ := h.new hc hu
      rw [hu2] at hu'
      cases hu'
      exact hm

theorem triUniqueT (h : Surgery M M' C N A) (hM : TriUniqueT M)
    (hin : ∀ k t e k' t' e', k ∈ N → k' ∈ N → M' k = some t → M' k' = some t' →
      t'.tri e' = t.tri e → k' = k ∧ e' = e)
    (hout : ∀ (y : Walker) t k u e, y.tet ∈ N → M' y.tet = some t → (t.adj y.edge).tet ∈ N →
      M k = some u → k ∉ C → u.tri e ≠ t.tri y.edge) : TriUniqueT M' := by
  have key : ∀ k t e k' t' e', k ∈ N → k' ∉ N → M' k = some t → M' k' = some t' →
      t'.tri e' = t.tri e → False := by
    intro k t e k' t' e' hk hk' ht ht' he
    obtain ⟨hC, u, hu, rfl⟩ := h.old hk' ht'
    rcases h.inner ⟨k, e⟩ t hk ht with ⟨x, t0, hxC, hx, hxo, hy⟩ | ⟨h1, -⟩
    · obtain ⟨-, t2, h2, -, h4⟩ := h.outer x t0 hxC hx hxo
      rw [← hy] at h2 h4
      rw [ht] at h2
      cases h2
      have := hM x.tet t0 x.edge k' u e' hx hu (by rw [← h4]; exact he)
      exact hC (this.1 ▸ hxC)
    · exact hout ⟨k, e⟩ t k' u e' hk ht h1 hu hC he
  intro k t e k' t' e' ht ht' he
  by_cases hk : k ∈ N <;> by_cases hk' : k' ∈ N
  · exact hin k t e k' t' e' hk hk' ht ht' he
  · exact (key k t e k' t' e' hk hk' ht ht' he).elim
  · exact (key k' t' e' k t e hk' hk ht' ht he.symm).elim
  · obtain ⟨-, u, hu, rfl⟩ := h.old hk ht
    obtain ⟨-, u', hu', rfl⟩ := h.old hk' ht'
    exact hM k u e k' u' e' hu hu' he

theorem edge_twin (t : Tet T) (e : Code) : t.edge (twin e) = ((t.edge e).2, (t.edge e).1) := by
  have h : ∀ e, firstIdx (twin e) = secondIdx e ∧ secondIdx (twin e) = firstIdx e := by decide
  simp [Tet.edge, Tet.first, Tet.second, h]

/-- The walkers of one edge form one ring afterwards if they did before, provided that new
tets with a common edge are connected around it, new edges excepted or old edges survive. -/
theorem oneRingT (h : Surgery M M' C N A) (hA : AdjT M) (hM : OneRingT M)
    (hin : ∀ k t e k' t' e', k ∈ N → k' ∈ N → M' k = some t → M' k' = some t' →
      t'.edge e' = t.edge e → RingT M' ⟨k, e⟩ ⟨k', e'⟩)
    (hnew : ∀ k t e, k ∈ N → M' k = some t →
      (∃ k0 t0 e0, k0 ∈ C ∧ M k0 = some t0 ∧ t0.edge e0 = t.edge e) ∨
      (∀ k0 t0 e0, M k0 = some t0 → t0.edge e0 ≠ t.edge e))
    (hold : ∀ k t e, k ∈ C → M k = some t →
      (∃ k' t' e', k' ∈ N ∧ M' k' = some t' ∧ t'.edge e' = t.edge e) ∨
      (∀ k' t' e', M' k' = some t' → t'.edge e' ≠ t.edge e)) : OneRingT M' := by
  -- an old walker and a new walker represent the same position around the edge
  let R : Walker → Walker → Prop := fun x y =>
    (x.tet ∉ C ∧ y = x) ∨ (x.tet ∈ C ∧ y.tet ∈ N ∧ ∃ t t', M x.tet = some t ∧ M' y.tet = some t' ∧
      t'.edge y.edge = t.edge x.edge)
  have hR : ∀ x y y', R x y → R x y' → RingT M' y y' := by
    rintro x y y' (⟨h1, rfl⟩ | ⟨h1, h2, t, t', h3, h4, h5⟩) (⟨h1', rfl⟩ | ⟨h1', h2', u, u', h3', h4', h5'⟩)
    · exact .refl _
    · exact absurd h1' h1
    · exact absurd h1 h1'
    · rw [h3] at h3'
      cases h3'
      exact hin y.tet t' y.edge y'.tet u' y'.edge h2 h2' h4 h4' (by rw [h5, h5'])
  -- one step around the old edge
  have hstep : ∀ x t, M x.tet = some t →
      ∀ y y', R x y → R (t.adj (twin x.edge)) y' → RingT M' y y' := by
    intro x t hx y y' hy hy'
    obtain ⟨u, hu, hua, hut⟩ := hA _ _ (twin x.edge) hx
    have hedge : u.edge (t.adj (twin x.edge)).edge = t.edge x.edge := by
      simp only [Tet.tri, Prod.mk.injEq] at hut
      have := edge_twin t x.edge
      simp only [Tet.edge, Prod.mk.injEq] at this ⊢
      rw [hut.1, hut.2.1, this.1, this.2]; simp
    by_cases hxC : x.tet ∈ C
    · obtain ⟨h1, _⟩ | ⟨-, hyN, t1, t', h3, h4, h5⟩ := hy
      · exact absurd hxC h1
      rw [hx] at h3
      cases h3
      by_cases hc : (t.adj (twin x.edge)).tet ∈ C
      · obtain ⟨h1, _⟩ | ⟨-, hyN', t2, t2', h3', h4', h5'⟩ := hy'
        · exact absurd hc h1
        rw [hu] at h3'
        cases h3'
        refine hin y.tet t' y.edge y'.tet t2' y'.edge hyN hyN' h4 h4' ?_
        rw [h5', h5, hedge]
      · obtain ⟨-, rfl⟩ | ⟨h1, _⟩ := hy'
        swap
        · exact absurd h1 hc
        obtain ⟨hoN, t2, h2, h3, h4'⟩ := h.outer ⟨x.tet, twin x.edge⟩ t hxC hx hc
        simp only at h3 h4'
        -- the new walker at the same place
        have e1 : t2.edge (twin (moved A ⟨x.tet, twin x.edge⟩).edge) = t'.edge y.edge := by
          rw [h5, edge_twin]
          simp only [Tet.tri, Prod.mk.injEq] at h4'
          simp only [Tet.edge]
          rw [h4'.1, h4'.2.1]
          have := edge_twin t x.edge
          simp only [Tet.edge, Prod.mk.injEq] at this
          rw [this.1, this.2]
        have r1 := hin y.tet t' y.edge (moved A ⟨x.tet, twin x.edge⟩).tet t2
          (twin (moved A ⟨x.tet, twin x.edge⟩).edge) hyN hoN h4 h2 e1
        have r2 := RingT.step r1 h2
        simp only [twin_twin] at r2
        rw [h3] at r2
        exact r2
    · obtain ⟨-, rfl⟩ | ⟨h1, _⟩ := hy
      swap
      · exact absurd h1 hxC
      obtain ⟨-, hx'⟩ := h.new hxC hx
      have r1 := RingT.step (RingT.refl y) hx'
      rw [patch_adj] at r1
      by_cases hc : (t.adj (twin y.edge)).tet ∈ C
      · simp only [hc, if_true] at r1
        obtain ⟨h1, _⟩ | ⟨-, hyN', t2, t2', h3', h4', h5'⟩ := hy'
        · exact absurd hc h1
        rw [hu] at h3'
        cases h3'
        obtain ⟨hoN, t3, h2, h3, h4⟩ := h.outer (t.adj (twin y.edge)) u hc hu (by rw [hua]; exact hxC)
        refine r1.trans (hin _ t3 (moved A (t.adj (twin y.edge))).edge y'.tet t2' y'.edge hoN hyN' h2 h4' ?_)
        rw [h5']
        simp only [Tet.tri, Prod.mk.injEq] at h4
        simp only [Tet.edge]
        rw [h4.1, h4.2.1]
      · simp only [hc, if_false] at r1
        obtain ⟨-, rfl⟩ | ⟨h1, _⟩ := hy'
        swap
        · exact absurd h1 hc
        exact r1
  -- old walkers whose edge survives have a representative
  have hrep : ∀ x t, M x.tet = some t → (∃ k' t' e', M' k' = some t' ∧ t'.edge e' = t.edge x.edge) →
      ∃ y, R x y := by
    intro x t hx hs
    by_cases hxC : x.tet ∈ C
    · rcases hold x.tet t x.edge hxC hx with ⟨k', t', e', h1, h2, h3⟩ | hno
      · exact ⟨⟨k', e'⟩, .inr ⟨hxC, h1, t, t', hx, h2, h3⟩⟩
      · obtain ⟨k', t', e', h1, h2⟩ := hs
        exact absurd h2 (hno k' t' e' h1)
    · exact ⟨x, .inl ⟨hxC, rfl⟩⟩
  -- edges are constant along rings
  have hedge : ∀ (x : Walker) t, M x.tet = some t → ∃ u, M (t.adj (twin x.edge)).tet = some u ∧
      u.edge (t.adj (twin x.edge)).edge = t.edge x.edge := by
    intro x t hx
    obtain ⟨u, hu, hua, hut⟩ := hA _ _ (twin x.edge) hx
    refine ⟨u, hu, ?_⟩
    simp only [Tet.tri, Prod.mk.injEq] at hut
    have := edge_twin t x.edge
    simp only [Tet.edge, Prod.mk.injEq] at this ⊢
    rw [hut.1, hut.2.1, this.1, this.2]; simp
  -- rings are carried over
  have hring : ∀ a b, RingT M a b → ∀ t, M a.tet = some t →
      (∃ k' t' e', M' k' = some t' ∧ t'.edge e' = t.edge a.edge) →
      (∃ u, M b.tet = some u ∧ u.edge b.edge = t.edge a.edge) ∧
      ∀ y y', R a y → R b y' → RingT M' y y' := by
    intro a b hab
    induction hab with
    | refl => intro t ht _; exact ⟨⟨t, ht, rfl⟩, fun y y' hy hy' => hR _ _ _ hy hy'⟩
    | @step b tb _ hm ih =>
      intro t ht hs
      obtain ⟨⟨u, hu, hue⟩, ih⟩ := ih t ht hs
      rw [hm] at hu
      cases hu
      obtain ⟨u2, hu2, hue2⟩ := hedge b tb hm
      refine ⟨⟨u2, hu2, by rw [hue2, hue]⟩, fun y y' hy hy' => ?_⟩
      obtain ⟨z, hz⟩ := hrep b tb hm (by rw [hue]; exact hs)
      exact (ih y z hy hz).trans (hstep b tb hm z y' hz hy')
    | @back c tc _ hm ih =>
      intro t ht hs
      obtain ⟨⟨u, hu, hue⟩, ih⟩ := ih t ht hs
      obtain ⟨u2, hu2, hue2⟩ := hedge c tc hm
      rw [hu] at hu2
      cases hu2
      refine ⟨⟨tc, hm, by rw [← hue2, hue]⟩, fun y y' hy hy' => ?_⟩
      obtain ⟨z, hz⟩ := hrep (tc.adj (twin c.edge)) u hu (by rw [hue]; exact hs)
      exact (ih y z hy hz).trans (hstep c tc hm y' z hy' hz).symm
  -- new walkers represent old ones unless their edge is new
  have hsrc : ∀ k t e, M' k = some t →
      (∃ x t0, M x.tet = some t0 ∧ t0.edge x.edge = t.edge e ∧ R x ⟨k, e⟩) ∨
      (k ∈ N ∧ ∀ k0 t0 e0, M k0 = some t0 → t0.edge e0 ≠ t.edge e) := by
    intro k t e ht
    by_cases hk : k ∈ N
    · rcases hnew k t e hk ht with ⟨k0, t0, e0, h1, h2, h3⟩ | hno
      · exact .inl ⟨⟨k0, e0⟩, t0, h2, h3, .inr ⟨h1, hk, t0, t, h2, ht, h3.symm⟩⟩
      · exact .inr ⟨hk, hno⟩
    · obtain ⟨hC, u, hu, rfl⟩ := h.old hk ht
      exact .inl ⟨⟨k, e⟩, u, hu, rfl, .inl ⟨hC, rfl⟩⟩
  intro k t e k' t' e' ht ht' he
  rcases hsrc k t e ht with ⟨x, t0, hx, hxe, hxR⟩ | ⟨hN, hno⟩
  · rcases hsrc k' t' e' ht' with ⟨x', t0', hx', hxe', hxR'⟩ | ⟨hN', hno'⟩
    · have r := hM x.tet t0 x.edge x'.tet t0' x'.edge hx hx' (by rw [hxe, hxe', he])
      exact (hring x x' r t0 hx ⟨k, t, e, ht, hxe.symm⟩).2 _ _ hxR hxR'
    · exact absurd (hxe.trans he.symm) (hno' x.tet t0 x.edge hx)
  · by_cases hN' : k' ∈ N
    · exact hin k t e k' t' e' hN hN' ht ht' he
    · obtain ⟨hC, u, hu, rfl⟩ := h.old hN' ht'
      exact absurd he (hno k' u e' hu)

end Surgery
end Tet
