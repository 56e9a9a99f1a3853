import Verif.Model.Flips
import Verif.Proofs.Consistent

/-! Effects of the elementary mesh updates used by the flips. -/

namespace Tet
open Spec

variable {P V T : Type}

/-- Only the tets have changed, and no tet was added or removed. -/
structure TStep (m m' : Mesh P V T) : Prop where
  eq : m' = { m with tets := m'.tets }
  wf : m.tets.WF → m'.tets.WF
  size : m'.tets.size = m.tets.size

theorem TStep.refl (m : Mesh P V T) : TStep m m := ⟨rfl, id, rfl⟩

theorem TStep.trans {m m1 m2 : Mesh P V T} (h : TStep m m1) (h' : TStep m1 m2) : TStep m m2 := by
  refine ⟨?_, fun hw => h'.wf (h.wf hw), h'.size.trans h.size⟩
  rw [h'.eq]
  rw [h.eq]

namespace Mesh

theorem modTet_step (m : Mesh P V T) {k t} (f : Tet T → Tet T) (h : m.tets.get k = some t) :
    ∃ m', m.modTet k f = some m' ∧ TStep m m' ∧
      ∀ j, m'.tets.get j = if j = k then some (f t) else m.tets.get j := by
  refine ⟨{ m with tets := m.tets.modify k f }, by simp [modTet, h],
    ⟨rfl, fun hw => hw.modify k f, IdMap.size_modify _ _ _⟩, ?_⟩
  intro j
  simp only [IdMap.get_modify]
  split_ifs with hj
  · subst hj; rw [h]; rfl
  · rfl

theorem toAdj_eq {m : Mesh P V T} {w : Walker} {t} (h : m.tets.get w.tet = some t) :
    m.toAdj w = some (t.adj w.edge) := by simp [toAdj, h]

theorem undirEdge_eq {m : Mesh P V T} {w : Walker} {t} (h : m.tets.get w.tet = some t) :
    m.undirEdge w = some (t.undirEdge w.edge) := by simp [undirEdge, h]

theorem triLocked_eq {m : Mesh P V T} {w : Walker} {t} (h : m.tets.get w.tet = some t) :
    m.triLocked w = some (t.flags.locked (face w.edge)) := by simp [triLocked, h]

theorem copyLock_step (m : Mesh P V T) {adj : Walker} {id i a t} (ha : m.tets.get adj.tet = some a)
    (ht : m.tets.get id = some t) :
    ∃ m', m.copyLock adj id i = some m' ∧ TStep m m' ∧ ∀ j, m'.tets.get j =
      if j = id then some (if a.flags.locked (face adj.edge) then t.setLocked i else t)
      else m.tets.get j := by
  simp only [copyLock, triLocked_eq ha, Option.bind_eq_bind, Option.bind_some]
  cases hl : a.flags.locked (face adj.edge)
  · refine ⟨m, by simp, .refl m, fun j => ?_⟩
    by_cases hj : j = id
    · simp [hj, ht]
    · simp [hj]
  · obtain ⟨m', h1, h2, h3⟩ := m.modTet_step (·.setLocked i) ht
    exact ⟨m', by simpa using h1, h2, by simpa using h3⟩

theorem copyEdge_step (m : Mesh P V T) {adj : Walker} {id i a t} (ha : m.tets.get adj.tet = some a)
    (ht : m.tets.get id = some t) :
    ∃ m', m.copyEdge adj id i = some m' ∧ TStep m m' ∧ ∀ j, m'.tets.get j =
      if j = id then some (t.setEdge i (a.undirEdge adj.edge)) else m.tets.get j := by
  simp only [copyEdge, undirEdge_eq ha, Option.bind_eq_bind, Option.bind_some]
  exact m.modTet_step _ ht

theorem copyEdgeSlot_step (m : Mesh P V T) {id' id : TId} {j i a t}
    (ha : m.tets.get id' = some a) (ht : m.tets.get id = some t) :
    ∃ m', m.copyEdgeSlot id' j id i = some m' ∧ TStep m m' ∧ ∀ k, m'.tets.get k =
      if k = id then some (t.setEdge i (a.edges j)) else m.tets.get k := by
  simp only [copyEdgeSlot, ha, Option.bind_eq_bind, Option.bind_some]
  exact m.modTet_step _ ht

/-! ### Redirecting neighbours -/

end Mesh

/-- Effect of one `redirect` on the tet `k`. -/
def patch1 (r : Walker × TId × Code) (k : TId) (t : Tet T) : Tet T :=
  if k = r.1.tet then
    { t with opp := fun f =>
        if f = face r.1.edge then ⟨r.2.1, permInv r.2.2 (t.opp f).edge⟩ else t.opp f }
  else t

def patches (L : List (Walker × TId × Code)) (k : TId) (t : Tet T) : Tet T :=
  L.foldl (fun t r => patch1 r k t) t

theorem Mesh.redirect_step (m : Mesh P V T) {a : Walker} {u} (id : TId) (c : Code)
    (h : m.tets.get a.tet = some u) :
    ∃ m', m.redirect a id c = some m' ∧ TStep m m' ∧
      ∀ k, m'.tets.get k = (m.tets.get k).map (patch1 (a, id, c) k) := by
  obtain ⟨m', h1, h2, h3⟩ := m.modTet_step
    (fun u => u.setOpp (face a.edge) ⟨id, permInv c (u.opp (face a.edge)).edge⟩) h
  refine ⟨m', h1, h2, fun k => ?_⟩
  rw [h3]
  by_cases hk : k = a.tet
  · subst hk
    simp only [if_true, h, Option.map_some, patch1, Tet.setOpp, Option.some.injEq]
    congr 1
    funext f
    simp only [Function.update_apply]
    split_ifs with hf
    · rw [hf]
    · rfl
  · simp only [hk, if_false]
    cases m.tets.get k with
    | none => rfl
    | some u => simp [patch1, hk]

theorem patch1_of_ne {r : Walker × TId × Code} {k} (h : k ≠ r.1.tet) (t : Tet T) :
    patch1 r k t = t := by simp [patch1, h]

theorem patches_of_ne {L : List (Walker × TId × Code)} {k} (h : ∀ r ∈ L, k ≠ r.1.tet) (t : Tet T) :
    patches L k t = t := by
  induction L generalizing t with
  | nil => rfl
  | cons r L ih =>
    simp only [patches, List.foldl_cons]
    rw [patch1_of_ne (h r List.mem_cons_self)]
    exact ih (fun r hr => h r (List.mem_cons_of_mem _ hr)) t

theorem patches_fields (L : List (Walker × TId × Code)) (k) (t : Tet T) :
    patches L k t = { t with opp := (patches L k t).opp } := by
  induction L generalizing t with
  | nil => rfl
  | cons r L ih =>
    simp only [patches, List.foldl_cons]
    have := ih (patch1 r k t)
    simp only [patches] at this
    rw [this]
    simp only [patch1]
    split <;> rfl

/-- The redirection of face `f` of tet `k`. -/
def hit (k : TId) (f : Fin 4) (r : Walker × TId × Code) : Bool :=
  decide (r.1.tet = k ∧ face r.1.edge = f)

theorem patches_opp (L : List (Walker × TId × Code))
    (hn : L.Pairwise fun r s => ¬ (r.1.tet = s.1.tet ∧ face r.1.edge = face s.1.edge))
    (k f) (t : Tet T) :
    (patches L k t).opp f = match L.find? (hit k f) with
      | some r => ⟨r.2.1, permInv r.2.2 (t.opp f).edge⟩
      | none => t.opp f := by
  induction L generalizing t with
  | nil => rfl
  | cons r L ih =>
    rw [List.pairwise_cons] at hn
    have := ih hn.2 (patch1 r k t)
    simp only [patches, List.foldl_cons] at this ⊢
    rw [this, List.find?_cons]
    by_cases hr : r.1.tet = k ∧ face r.1.edge = f
    · have hnone : L.find? (hit k f) = none := by
        rw [List.find?_eq_none]
        intro s hs hh
        simp only [hit, decide_eq_true_eq] at hh
        exact hn.1 s hs ⟨hr.1.trans hh.1.symm, hr.2.trans hh.2.symm⟩
      rw [hnone]
      simp [hit, hr, patch1]
    · have h1 : hit k f r = false := by simp [hit]; tauto
      have h2 : (patch1 r k t).opp f = t.opp f := by
        simp only [patch1]
        split_ifs with hk
        · simp only
          rw [if_neg (fun hf => hr ⟨hk.symm, hf.symm⟩)]
        · rfl
      rw [h1, h2]

theorem find?_congr' {α : Type} {p q : α → Bool} {l : List α} (h : ∀ a ∈ l, p a = q a) :
    l.find? p = l.find? q := by
  induction l with
  | nil => rfl
  | cons a l ih =>
    rw [List.find?_cons, List.find?_cons, h a List.mem_cons_self,
      ih fun b hb => h b (List.mem_cons_of_mem _ hb)]

/-- Where the outer faces go, as a function of the list of redirections `(x, id, c)`. -/
def target (R : List (Walker × TId × Code)) (k : TId) (f : Fin 4) : TId × Code :=
  match R.find? (hit k f) with
  | some r => r.2
  | none => (0, 0)

/-- The canonical code of a face. -/
def canonCode (f : Fin 4) : Code := ⟨f.val, by have := f.isLt; omega⟩

theorem face_canonCode : ∀ f, face (canonCode f) = f := by decide
theorem Tet.adj_canonCode (t : Tet T) (f : Fin 4) : t.adj (canonCode f) = t.opp f := by
  have : ∀ f, div4 (canonCode f) = 0 := by decide
  simp [Tet.adj, Tet.turn, this, face_canonCode]

/-- Face-level involution. -/
theorem AdjT.opp_opp {M : TMap T} (hM : AdjT M) {k t} (ht : M k = some t) (f : Fin 4) :
    ∃ u, M (t.opp f).tet = some u ∧ (u.opp (face (t.opp f).edge)).tet = k ∧
      face (u.opp (face (t.opp f).edge)).edge = f := by
  obtain ⟨u, hu, ha, -⟩ := hM k t (canonCode f) ht
  rw [Tet.adj_canonCode] at hu ha
  refine ⟨u, hu, ?_, ?_⟩
  · rw [← Tet.adj_tet, ha]
  · rw [← Tet.face_adj, ha, face_canonCode]

/-- The redirections of all the neighbours through the outer faces of `C` amount to `patch`. -/
theorem patches_eq_patch {M : TMap T} (hM : AdjT M) (C : List TId)
    (R : List (Walker × TId × Code)) (adjOf : Walker → Walker)
    (hR : ∀ r ∈ R, r.1.tet ∈ C ∧ ∃ t, M r.1.tet = some t ∧ adjOf r.1 = t.adj r.1.edge ∧
      (t.adj r.1.edge).tet ∉ C)
    (hcov : ∀ (x : Walker) t, x.tet ∈ C → M x.tet = some t → (t.adj x.edge).tet ∉ C →
      ∃ r ∈ R, r.1.tet = x.tet ∧ face r.1.edge = face x.edge)
    (hn : R.Pairwise fun r s => ¬ (r.1.tet = s.1.tet ∧ face r.1.edge = face s.1.edge))
    {k t} (hk : k ∉ C) (ht : M k = some t) :
    patches (R.map fun r => (adjOf r.1, r.2)) k t = patch C (target R) t := by
  -- a redirection hits face `f` of `k` iff its source is the face glued to it
  have hhit : ∀ r ∈ R, ∀ k t f, M k = some t → (hit k f (adjOf r.1, r.2) = true ↔
      hit (t.opp f).tet (face (t.opp f).edge) r = true) := by
    intro r hr k t f ht
    obtain ⟨hrC, u, hu, hadj, hout⟩ := hR r hr
    simp only [hit, decide_eq_true_eq, hadj, Tet.adj_tet, Tet.face_adj]
    constructor
    · rintro ⟨rfl, rfl⟩
      obtain ⟨v, hv, h1, h2⟩ := hM.opp_opp hu (face r.1.edge)
      rw [ht] at hv
      cases hv
      exact ⟨h1.symm, h2.symm⟩
    · rintro ⟨h1, h2⟩
      obtain ⟨v, hv, h3, h4⟩ := hM.opp_opp ht f
      rw [← h1, hu] at hv
      cases hv
      rw [h2]
      exact ⟨h3, h4⟩
  have hn' : (R.map fun r => (adjOf r.1, r.2)).Pairwise
      fun r s => ¬ (r.1.tet = s.1.tet ∧ face r.1.edge = face s.1.edge) := by
    rw [List.pairwise_map]
    refine hn.imp_of_mem ?_
    intro r s hr hs hne ⟨h1, h2⟩
    simp only at h1 h2
    obtain ⟨-, u, hu, hadj, -⟩ := hR r hr
    obtain ⟨-, v, hv, hadj', -⟩ := hR s hs
    obtain ⟨t2, ht2, -⟩ := hM _ _ r.1.edge hu
    have e1 := (hhit r hr _ t2 (face (adjOf r.1).edge) (hadj ▸ ht2)).1 (by simp [hit])
    have e2 := (hhit s hs _ t2 (face (adjOf r.1).edge) (hadj ▸ ht2)).1 (by simp [hit, h1, h2])
    simp only [hit, decide_eq_true_eq] at e1 e2
    exact hne ⟨e1.1.trans e2.1.symm, e1.2.trans e2.2.symm⟩
  rw [patches_fields, patch]
  congr 1
  funext f
  rw [patches_opp _ hn', List.find?_map]
  have hfind : R.find? (hit k f ∘ fun r => (adjOf r.1, r.2)) =
      R.find? (hit (t.opp f).tet (face (t.opp f).edge)) := by
    refine find?_congr' fun r hr => ?_
    rw [Bool.eq_iff_iff]
    exact hhit r hr k t f ht
  rw [hfind]
  cases hf : R.find? (hit (t.opp f).tet (face (t.opp f).edge)) with
  | none =>
    simp only [Option.map_none]
    rw [if_neg]
    intro hc
    obtain ⟨u, hu, h1, h2⟩ := hM.opp_opp ht f
    obtain ⟨r, hr, h3, h4⟩ := hcov (t.opp f) u hc hu (by rw [Tet.adj_tet, h1]; exact hk)
    rw [List.find?_eq_none] at hf
    exact hf r hr (by simp [hit, h3, h4])
  | some r =>
    have hr := List.mem_of_find?_eq_some hf
    have hh := List.find?_some hf
    simp only [hit, decide_eq_true_eq] at hh
    have : (t.opp f).tet ∈ C := hh.1 ▸ (hR r hr).1
    simp only [Option.map_some, this, if_true, moved, target, hf]

/-! ### The triangle index -/

theorem triKey_mem_canon {t : Tet T} (h : Function.Injective t.vertices) (e : Code) :
    ∃ f, triKey (t.tri (canonCode f)) = triKey (t.tri e) :=
  ⟨face e, Tet.triKey_face h (by rw [face_canonCode])⟩

/-- `s` is the key of a stored triangle of `t`. -/
def HasKey (t : Tet T) (s : V3) : Prop := ∃ f, triKey (t.tri (canonCode f)) = s

theorem hasKey_iff (t : Tet T) (s) : HasKey t s ↔ triKey (t.tri 0) = s ∨ triKey (t.tri 1) = s ∨
    triKey (t.tri 2) = s ∨ triKey (t.tri 3) = s := by
  constructor
  · rintro ⟨f, h⟩
    revert h
    fin_cases f <;> intro h
    · exact .inl h
    · exact .inr (.inl h)
    · exact .inr (.inr (.inl h))
    · exact .inr (.inr (.inr h))
  · rintro (h | h | h | h)
    · exact ⟨0, h⟩
    · exact ⟨1, h⟩
    · exact ⟨2, h⟩
    · exact ⟨3, h⟩

theorem hasKey_iff_tri {t : Tet T} (h : Function.Injective t.vertices) (s) :
    HasKey t s ↔ ∃ e, triKey (t.tri e) = s := by
  constructor
  · rintro ⟨f, h⟩; exact ⟨_, h⟩
  · rintro ⟨e, rfl⟩; exact triKey_mem_canon h e

namespace Mesh

theorem triRemoveTet_spec {m : Mesh P V T} {k t} (h : m.tets.get k = some t) :
    ∃ tm, m.triRemoveTet k = some { m with triMap := tm } ∧
      (∀ s, HasKey t s → tm s = none) ∧ (∀ s, ¬ HasKey t s → tm s = m.triMap s) := by
  refine ⟨_, by simp only [triRemoveTet, h, Option.bind_eq_bind, Option.bind_some, triRemove,
    Option.pure_def]; rfl, ?_, ?_⟩
  · intro s hs
    rw [hasKey_iff] at hs
    simp only [Function.update_apply]
    split_ifs <;> first | rfl | (exfalso; tauto)
  · intro s hs
    rw [hasKey_iff] at hs
    simp only [Function.update_apply]
    split_ifs with h1 h2 h3 h4
    · subst h1; tauto
    · subst h2; tauto
    · subst h3; tauto
    · subst h4; tauto
    · rfl

theorem triInsertTet_spec {m : Mesh P V T} {k t} (h : m.tets.get k = some t) :
    ∃ tm, m.triInsertTet k = some { m with triMap := tm } ∧
      (∀ s, HasKey t s → ∃ e, tm s = some ⟨k, e⟩ ∧ triKey (t.tri e) = s) ∧
      (∀ s, ¬ HasKey t s → tm s = m.triMap s) := by
  refine ⟨_, by simp only [triInsertTet, h, Option.bind_eq_bind, Option.bind_some, triInsert,
    Option.pure_def]; rfl, ?_, ?_⟩
  · intro s hs
    rw [hasKey_iff] at hs
    simp only [Function.update_apply]
    split_ifs with h1 h2 h3 h4
    · exact ⟨3, rfl, h1.symm⟩
    · exact ⟨2, rfl, h2.symm⟩
    · exact ⟨1, rfl, h3.symm⟩
    · exact ⟨0, rfl, h4.symm⟩
    · exfalso
      rcases hs with h | h | h | h
      · exact h4 h.symm
      · exact h3 h.symm
      · exact h2 h.symm
      · exact h1 h.symm
  · intro s hs
    rw [hasKey_iff] at hs
    simp only [Function.update_apply]
    split_ifs with h1 h2 h3 h4
    · subst h1; tauto
    · subst h2; tauto
    · subst h3; tauto
    · subst h4; tauto
    · rfl

theorem triRemove_foldlM (ks : List TId) (m : Mesh P V T)
    (h : ∀ k ∈ ks, ∃ t, m.tets.get k = some t) :
    ∃ tm, ks.foldlM triRemoveTet m = some { m with triMap := tm } ∧
      (∀ s k t, k ∈ ks → m.tets.get k = some t → HasKey t s → tm s = none) ∧
      (∀ s, (∀ k t, k ∈ ks → m.tets.get k = some t → ¬ HasKey t s) → tm s = m.triMap s) := by
  induction ks generalizing m with
  | nil => exact ⟨m.triMap, rfl, by simp, by simp⟩
  | cons k ks ih =>
    obtain ⟨t, ht⟩ := h k List.mem_cons_self
    obtain ⟨tm, h1, h2, h3⟩ := triRemoveTet_spec ht
    obtain ⟨tm', h4, h5, h6⟩ := ih { m with triMap := tm }
      (fun k hk => h k (List.mem_cons_of_mem _ hk))
    refine ⟨tm', by rw [List.foldlM_cons, h1]; exact h4, ?_, ?_⟩
    · intro s k' t' hk' ht' hs
      rcases List.mem_cons.1 hk' with rfl | hk'
      · rw [ht] at ht'
        cases ht'
        by_cases hex : ∃ k t, k ∈ ks ∧ m.tets.get k = some t ∧ HasKey t s
        · obtain ⟨k2, t2, a, b, c⟩ := hex
          exact h5 s k2 t2 a b c
        · rw [h6 s (fun k t hk ht hh => hex ⟨k, t, hk, ht, hh⟩)]
          exact h2 s hs
      · exact h5 s k' t' hk' ht' hs
    · intro s hs
      rw [h6 s (fun k t hk ht => hs k t (List.mem_cons_of_mem _ hk) ht)]
      exact h3 s (hs k t List.mem_cons_self ht)

theorem triInsert_foldlM (ks : List TId) (m : Mesh P V T)
    (h : ∀ k ∈ ks, ∃ t, m.tets.get k = some t) :
    ∃ tm, ks.foldlM triInsertTet m = some { m with triMap := tm } ∧
      (∀ s, (∃ k t, k ∈ ks ∧ m.tets.get k = some t ∧ HasKey t s) →
        ∃ w t, w.tet ∈ ks ∧ m.tets.get w.tet = some t ∧ triKey (t.tri w.edge) = s ∧ tm s = some w) ∧
      (∀ s, (∀ k t, k ∈ ks → m.tets.get k = some t → ¬ HasKey t s) → tm s = m.triMap s) := by
  induction ks generalizing m with
  | nil => exact ⟨m.triMap, rfl, by simp, by simp⟩
  | cons k ks ih =>
    obtain ⟨t, ht⟩ := h k List.mem_cons_self
    obtain ⟨tm, h1, h2, h3⟩ := triInsertTet_spec ht
    obtain ⟨tm', h4, h5, h6⟩ := ih { m with triMap := tm }
      (fun k hk => h k (List.mem_cons_of_mem _ hk))
    refine ⟨tm', by rw [List.foldlM_cons, h1]; exact h4, ?_, ?_⟩
    · intro s hs
      by_cases hex : ∃ k t, k ∈ ks ∧ m.tets.get k = some t ∧ HasKey t s
      · obtain ⟨w, t, a, b⟩ := h5 s hex
        exact ⟨w, t, List.mem_cons_of_mem _ a, b⟩
      · have e := h6 s (fun k t hk ht hh => hex ⟨k, t, hk, ht, hh⟩)
        obtain ⟨k', t', hk', ht', hs'⟩ := hs
        rcases List.mem_cons.1 hk' with rfl | hk'
        · rw [ht] at ht'
          cases ht'
          obtain ⟨e0, h7, h8⟩ := h2 s hs'
          exact ⟨⟨k', e0⟩, t, List.mem_cons_self, ht, h8, by rw [e]; exact h7⟩
        · exact absurd ⟨k', t', hk', ht', hs'⟩ hex
    · intro s hs
      rw [h6 s (fun k t hk ht => hs k t (List.mem_cons_of_mem _ hk) ht)]
      exact h3 s (hs k t List.mem_cons_self ht)

theorem triRemoveTets_spec (ks : List TId) (m : Mesh P V T)
    (h : ∀ k ∈ ks, ∃ t, m.tets.get k = some t) :
    ∃ tm, m.triRemoveTets ks = some { m with triMap := tm } ∧ (m.trackTriMap = false → tm = m.triMap) ∧
      (m.trackTriMap = true →
      (∀ s k t, k ∈ ks → m.tets.get k = some t → HasKey t s → tm s = none) ∧
      (∀ s, (∀ k t, k ∈ ks → m.tets.get k = some t → ¬ HasKey t s) → tm s = m.triMap s)) := by
  rcases Bool.eq_false_or_eq_true m.trackTriMap with htr | htr
  · obtain ⟨tm, h1, h2⟩ := triRemove_foldlM ks m h
    exact ⟨tm, by simp only [triRemoveTets, htr, if_true]; rw [h1]; simp only [htr],
      fun hf => by simp [htr] at hf, fun _ => h2⟩
  · exact ⟨m.triMap, by rw [triRemoveTets, if_neg (by simp [htr])], fun _ => rfl,
      fun ht => by simp [htr] at ht⟩

theorem triInsertTets_spec (ks : List TId) (m : Mesh P V T)
    (h : ∀ k ∈ ks, ∃ t, m.tets.get k = some t) :
    ∃ tm, m.triInsertTets ks = some { m with triMap := tm } ∧ (m.trackTriMap = false → tm = m.triMap) ∧
      (m.trackTriMap = true →
      (∀ s, (∃ k t, k ∈ ks ∧ m.tets.get k = some t ∧ HasKey t s) →
        ∃ w t, w.tet ∈ ks ∧ m.tets.get w.tet = some t ∧ triKey (t.tri w.edge) = s ∧ tm s = some w) ∧
      (∀ s, (∀ k t, k ∈ ks → m.tets.get k = some t → ¬ HasKey t s) → tm s = m.triMap s)) := by
  rcases Bool.eq_false_or_eq_true m.trackTriMap with htr | htr
  · obtain ⟨tm, h1, h2⟩ := triInsert_foldlM ks m h
    exact ⟨tm, by simp only [triInsertTets, htr, if_true]; rw [h1]; simp only [htr],
      fun hf => by simp [htr] at hf, fun _ => h2⟩
  · exact ⟨m.triMap, by rw [triInsertTets, if_neg (by simp [htr])], fun _ => rfl,
      fun ht => by simp [htr] at ht⟩

end Mesh
end Tet
