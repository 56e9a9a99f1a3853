import Verif.Proofs.MeshOps

/-! Parts of the flips that are common to all of them. -/

namespace Tet
open Spec

variable {P V T : Type}

/-! ### Resetting vertex references -/

/-- Several `setVertexTet` in order. -/
def setTets (vs : IdMap (Vertex P V)) (L : List (VId × Walker)) : IdMap (Vertex P V) :=
  L.foldl (fun vs p => vs.modify p.1 fun x => { x with tet := p.2 }) vs

theorem setTets_wf {vs : IdMap (Vertex P V)} (h : vs.WF) (L) : (setTets vs L).WF := by
  induction L generalizing vs with
  | nil => exact h
  | cons p L ih => exact ih (h.modify _ _)

theorem setTets_size (vs : IdMap (Vertex P V)) (L) : (setTets vs L).size = vs.size := by
  induction L generalizing vs with
  | nil => rfl
  | cons p L ih =>
    have := ih (vs.modify p.1 fun x => { x with tet := p.2 })
    rw [IdMap.size_modify] at this
    exact this

theorem setTets_get (vs : IdMap (Vertex P V)) (L : List (VId × Walker)) (v : VId) :
    ((∀ p ∈ L, p.1 ≠ v) ∧ (setTets vs L).get v = vs.get v) ∨
    ∃ w, (v, w) ∈ L ∧ (setTets vs L).get v = (vs.get v).map fun x => { x with tet := w } := by
  induction L generalizing vs with
  | nil => exact .inl ⟨by simp, rfl⟩
  | cons p L ih =>
    rcases ih (vs.modify p.1 fun x => { x with tet := p.2 }) with ⟨h1, h2⟩ | ⟨w, h1, h2⟩
    · rw [IdMap.get_modify] at h2
      by_cases hp : p.1 = v
      · subst hp
        rw [if_pos rfl] at h2
        exact .inr ⟨p.2, List.mem_cons_self, h2⟩
      · rw [if_neg (Ne.symm hp)] at h2
        refine .inl ⟨?_, h2⟩
        intro q hq
        rcases List.mem_cons.1 hq with rfl | hq
        · exact hp
        · exact h1 q hq
    · refine .inr ⟨w, List.mem_cons_of_mem _ h1, ?_⟩
      have h2' : (setTets vs (p :: L)).get v = _ := h2
      rw [h2', IdMap.get_modify]
      split
      · rw [Option.map_map]; rfl
      · rfl

theorem setTets_some {vs : IdMap (Vertex P V)} {L : List (VId × Walker)} {v : VId} {x'}
    (h : (setTets vs L).get v = some x') :
    ((∀ p ∈ L, p.1 ≠ v) ∧ vs.get v = some x') ∨
    ∃ w x, (v, w) ∈ L ∧ vs.get v = some x ∧ x' = { x with tet := w } := by
  rcases setTets_get vs L v with ⟨h1, h2⟩ | ⟨w, h1, h2⟩
  · exact .inl ⟨h1, h2 ▸ h⟩
  · rw [h] at h2
    cases hx : vs.get v with
    | none => rw [hx] at h2; simp at h2
    | some x =>
      rw [hx] at h2
      simp only [Option.map_some, Option.some.injEq] at h2
      exact .inr ⟨w, x, h1, rfl, h2⟩

theorem setTets_keep {vs : IdMap (Vertex P V)} {v : VId} {x} (L : List (VId × Walker))
    (h : vs.get v = some x) : ∃ w, (setTets vs L).get v = some { x with tet := w } := by
  rcases setTets_get vs L v with ⟨-, h2⟩ | ⟨w, -, h2⟩
  · exact ⟨x.tet, by rw [h2, h]⟩
  · exact ⟨w, by rw [h2, h]; rfl⟩

/-! ### The triangle index -/

/-- The triangle index after replacing the tets `C` by `N`. -/
structure TriUpd (m m' : Mesh P V T) (C N : List TId) : Prop where
  off : m.trackTriMap = false → m'.triMap = m.triMap
  new : m.trackTriMap = true → ∀ s, (∃ k t, k ∈ N ∧ m'.tets.get k = some t ∧ HasKey t s) →
    ∃ w t, w.tet ∈ N ∧ m'.tets.get w.tet = some t ∧ triKey (t.tri w.edge) = s ∧ m'.triMap s = some w
  gone : m.trackTriMap = true → ∀ s, ¬ (∃ k t, k ∈ N ∧ m'.tets.get k = some t ∧ HasKey t s) →
    (∃ k t, k ∈ C ∧ m.tets.get k = some t ∧ HasKey t s) → m'.triMap s = none
  keep : m.trackTriMap = true → ∀ s, ¬ (∃ k t, k ∈ N ∧ m'.tets.get k = some t ∧ HasKey t s) →
    ¬ (∃ k t, k ∈ C ∧ m.tets.get k = some t ∧ HasKey t s) → m'.triMap s = m.triMap s

theorem HasKey.congr {t t' : Tet T} (h : t.vertices = t'.vertices) (s) : HasKey t s ↔ HasKey t' s := by
  unfold HasKey Tet.tri Tet.first Tet.second Tet.third
  rw [h]

/-- `ma` is the mesh when the old triangles are removed, `mb` the mesh when the new ones are
inserted. -/
theorem TriUpd.of {m ma mb : Mesh P V T} {C N : List TId} {tm tm' : V3 → Option Walker}
    (htr : ma.trackTriMap = m.trackTriMap) (htr' : mb.trackTriMap = m.trackTriMap)
    (hma : ma.triMap = m.triMap) (hmb : mb.triMap = tm)
    (hC : ∀ k ∈ C, ∃ t ta, m.tets.get k = some t ∧ ma.tets.get k = some ta ∧ ta.vertices = t.vertices)
    (h1 : (ma.trackTriMap = false → tm = ma.triMap) ∧ (ma.trackTriMap = true →
      (∀ s k t, k ∈ C → ma.tets.get k = some t → HasKey t s → tm s = none) ∧
      (∀ s, (∀ k t, k ∈ C → ma.tets.get k = some t → ¬ HasKey t s) → tm s = ma.triMap s)))
    (h2 : (mb.trackTriMap = false → tm' = mb.triMap) ∧ (mb.trackTriMap = true →
      (∀ s, (∃ k t, k ∈ N ∧ mb.tets.get k = some t ∧ HasKey t s) →
        ∃ w t, w.tet ∈ N ∧ mb.tets.get w.tet = some t ∧ triKey (t.tri w.edge) = s ∧ tm' s = some w) ∧
      (∀ s, (∀ k t, k ∈ N → mb.tets.get k = some t → ¬ HasKey t s) → tm' s = mb.triMap s))) :
    TriUpd m { mb with triMap := tm' } C N := by
  refine ⟨?_, ?_, ?_, ?_⟩
  · intro h
    show tm' = _
    rw [h2.1 (htr'.trans h), hmb, h1.1 (htr.trans h), hma]
  · intro h s hs
    exact (h2.2 (htr'.trans h)).1 s hs
  · rintro h s hs ⟨k, t, hk, ht, hh⟩
    show tm' s = none
    rw [(h2.2 (htr'.trans h)).2 s (fun k t hk ht hh => hs ⟨k, t, hk, ht, hh⟩), hmb]
    obtain ⟨t', ta, e1, e2, e3⟩ := hC k hk
    rw [ht] at e1
    cases e1
    exact (h1.2 (htr.trans h)).1 s k ta hk e2 ((HasKey.congr e3 s).2 hh)
  · intro h s hs hs'
    show tm' s = _
    rw [(h2.2 (htr'.trans h)).2 s (fun k t hk ht hh => hs ⟨k, t, hk, ht, hh⟩), hmb,
      (h1.2 (htr.trans h)).2 s, hma]
    intro k t hk ht hh
    obtain ⟨t', ta, e1, e2, e3⟩ := hC k hk
    rw [ht] at e2
    cases e2
    exact hs' ⟨k, t', hk, e1, (HasKey.congr e3 s).1 hh⟩

/-! ### Redirecting -/

/-- `mk` is `m` after the redirections `L`; the tets `K` of the flip itself are given by `G`. -/
def RInv (m mk : Mesh P V T) (K : List TId) (G : TMap T) (L : List (Walker × TId × Code)) : Prop :=
  (∀ j ∈ K, mk.tets.get j = G j) ∧ ∀ j, j ∉ K → mk.tets.get j = (m.tets.get j).map (patches L j)

theorem RInv.redirect {m mk : Mesh P V T} {K : List TId} {G : TMap T}
    {L : List (Walker × TId × Code)} (h : RInv m mk K G L) {a : Walker} {u}
    (hu : m.tets.get a.tet = some u) (hK : a.tet ∉ K) (id : TId) (c : Code) :
    ∃ mk', mk.redirect a id c = some mk' ∧ TStep mk mk' ∧ RInv m mk' K G (L ++ [(a, id, c)]) := by
  obtain ⟨mk', h1, h2, h3⟩ := mk.redirect_step (a := a) id c
    (u := patches L a.tet u) (by rw [h.2 _ hK, hu]; rfl)
  refine ⟨mk', h1, h2, ?_, ?_⟩
  · intro j hj
    rw [h3, h.1 j hj]
    have : j ≠ a.tet := fun e => hK (e ▸ hj)
    cases G j with
    | none => rfl
    | some t => rw [Option.map_some, patch1_of_ne this]
  · intro j hj
    rw [h3, h.2 j hj, Option.map_map]
    congr 1
    funext t
    simp [patches, List.foldl_append]

theorem RInv.toAdj {m mk : Mesh P V T} {K : List TId} {G : TMap T}
    {L : List (Walker × TId × Code)} (h : RInv m mk K G L) {x : Walker} {t} (hx : x.tet ∈ K)
    (ht : G x.tet = some t) : mk.toAdj x = some (t.adj x.edge) :=
  Mesh.toAdj_eq (by rw [h.1 _ hx, ht])

/-! ### Tets next to each other -/

theorem AdjT.no_self {M : TMap T} (hA : AdjT M) (hD : DistinctT M) {k t} (h : M k = some t) (e) :
    (t.adj e).tet ≠ k := by
  intro hk
  obtain ⟨t', h1, -, h3⟩ := hA k t e h
  rw [hk, h] at h1
  cases h1
  simp only [Tet.tri, Prod.mk.injEq, Tet.first_eq, Tet.second_eq, Tet.third_eq] at h3
  have inj := hD k t h
  have key : ∀ e e', ¬ (perms e' 0 = perms e 1 ∧ perms e' 1 = perms e 0 ∧ perms e' 2 = perms e 2) := by
    decide
  exact key e (t.adj e).edge ⟨inj h3.1, inj h3.2.1, inj h3.2.2⟩

/-- If two tets share two different faces they have the same vertices. -/
theorem AdjT.two_faces {M : TMap T} (hA : AdjT M) (hD : DistinctT M) {k t t' e e'}
    (h : M k = some t) (h' : M (t.adj e).tet = some t') (hf : face e' ≠ face e)
    (hk : (t.adj e').tet = (t.adj e).tet) : t.fourth e = t'.fourth (t.adj e).edge := by
  obtain ⟨t1, h1, -, h3⟩ := hA k t e h
  rw [h'] at h1
  cases h1
  obtain ⟨t2, h4, -, h6⟩ := hA k t e' h
  rw [hk, h'] at h4
  cases h4
  simp only [Tet.tri, Prod.mk.injEq, Tet.first_eq, Tet.second_eq, Tet.third_eq] at h3 h6
  rw [Tet.fourth_eq, Tet.fourth_eq]
  have inj := hD k t h
  -- `t.fourth e` is on the face of `e'`, hence a vertex of `t'`
  have key : ∀ e e', face e' ≠ face e → perms e 3 = perms e' 0 ∨ perms e 3 = perms e' 1 ∨
    perms e 3 = perms e' 2 := by decide
  have hex : ∃ i, t'.vertices i = t.vertices (perms e 3) := by
    rcases key e e' hf with h | h | h
    · exact ⟨_, h6.2.1.trans (by rw [h])⟩
    · exact ⟨_, h6.1.trans (by rw [h])⟩
    · exact ⟨_, h6.2.2.trans (by rw [h])⟩
  obtain ⟨i, hi⟩ := hex
  have all : ∀ c (i : Fin 4), i = perms c 0 ∨ i = perms c 1 ∨ i = perms c 2 ∨ i = perms c 3 := by
    decide
  have ne : ∀ c (i : Fin 4), i ≠ 3 → perms c 3 ≠ perms c i := by decide
  rcases all (t.adj e).edge i with h | h | h | h
  · exact absurd (inj (by rw [← hi, h, h3.1])) (ne e 1 (by decide))
  · exact absurd (inj (by rw [← hi, h, h3.2.1])) (ne e 0 (by decide))
  · exact absurd (inj (by rw [← hi, h, h3.2.2])) (ne e 2 (by decide))
  · rw [← hi, h]

end Tet
