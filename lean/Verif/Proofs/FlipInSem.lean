import Verif.Proofs.FlipInCons
import Verif.Proofs.FlipSem

/-!
# Filling a cavity: what the result contains
-/

namespace Tet
open Spec
variable {P V T : Type}

section
variable {m m' : Mesh P V T} {v : VId} {B : List Walker} {E : List TId} {A : TId × Fin 4 → TId}
  {mate : Walker → Walker} {η : VId → EId}

/-- The tet that joins the triangle of a walker to the vertex. -/
def coneOf (m : Mesh P V T) (v : VId) (b : Walker) : V4 :=
  match m.tri b with
  | some (x, y, z) => (x, y, z, v)
  | none => (v, v, v, v)

theorem coneOf_eq {b : Walker} {t} (ht : m.tets.get b.tet = some t) (v : VId) :
    coneOf m v b = (t.first b.edge, t.second b.edge, t.third b.edge, v) := by
  simp only [coneOf, Mesh.tri, ht, Option.map_some, Tet.tri]

theorem NT.tet {h : Walker} {t t' : Tet T} (n : NT v A mate η h t t') :
    t'.tet h.edge = (t.first h.edge, t.second h.edge, t.third h.edge, v) := by
  have := n.tri
  simp only [Tet.tri, Prod.mk.injEq] at this
  have h4 := n.fourth
  simp only [Tet.tet, this, h4]

theorem FI.tet4 (h : FI m v B E) (hF : Flipped m v B E A mate η m') {b : Walker} (hb : b ∈ B) :
    m'.tet4 (nw A b) = some (coneOf m v b) := by
  obtain ⟨t, ht⟩ := h.get (h.outer_mem hb)
  obtain ⟨t', a1, a2⟩ := h.nt hF (h.outer_mem hb) ht
  rw [coneOf_eq ht]
  exact Mesh.tet4_iff.2 ⟨t', a1, (a2 b rfl).tet⟩

theorem FI.replaces (h : FI m v B E) (hmate : IsMate m E mate) (hF : Flipped m v B E A mate η m') {old : List V4}
    (hold : E.map (fun k => m.tet4 ⟨k, 3⟩) = old.map some) : Replaces m m' old (B.map (coneOf m v)) := by
  have hs := h.meshSurgery hmate hF
  have o1 : ∀ k ∈ E, ∃ p ∈ old, m.tet4 ⟨k, 3⟩ = some p := by
    intro k hk
    have : m.tet4 ⟨k, 3⟩ ∈ old.map some := by rw [← hold]; exact List.mem_map.2 ⟨k, hk, rfl⟩
    obtain ⟨p, hp, he⟩ := List.mem_map.1 this
    exact ⟨p, hp, he.symm⟩
  have o2 : ∀ p ∈ old, ∃ k ∈ E, m.tet4 ⟨k, 3⟩ = some p := by
    intro p hp
    have : some p ∈ E.map (fun k => m.tet4 ⟨k, 3⟩) := by rw [hold]; exact List.mem_map.2 ⟨p, hp, rfl⟩
    obtain ⟨k, hk, he⟩ := List.mem_map.1 this
    exact ⟨k, hk, he⟩
  have rd : ∀ (m : Mesh P V T) (w : Walker) p, m.tet4 w = some p → ∃ t, m.tets.get w.tet = some t ∧ EvenRearr t.vertices (quad p) := by
    intro m w p hp
    obtain ⟨t, ht, rfl⟩ := Mesh.tet4_iff.1 hp
    exact ⟨t, ht, t.rearr_tet _⟩
  refine hs.replaces h.cons _ _ ?_ ?_ ?_ ?_
  · intro k hk
    obtain ⟨p, hp, he⟩ := o1 k hk
    exact ⟨p, hp, rd m ⟨k, 3⟩ p he⟩
  · intro p hp
    obtain ⟨k, hk, he⟩ := o2 p hp
    exact ⟨k, hk, rd m ⟨k, 3⟩ p he⟩
  · intro k hk
    obtain ⟨b, hb, rfl⟩ := List.mem_map.1 hk
    exact ⟨_, List.mem_map_of_mem hb, rd m' (nw A b) _ (h.tet4 hF hb)⟩
  · intro p hp
    obtain ⟨b, hb, rfl⟩ := List.mem_map.1 hp
    exact ⟨_, List.mem_map.2 ⟨b, hb, rfl⟩, rd m' (nw A b) _ (h.tet4 hF hb)⟩

theorem FI.locksKept (h : FI m v B E) (hmate : IsMate m E mate) (hF : Flipped m v B E A mate η m') : LocksKept m m' := by
  have hs := h.meshSurgery hmate hF
  have hm := h.cons
  have hm' := hs.consistent hm
  constructor
  · refine hs.locksTri hm ?_
    rintro ⟨k, d⟩ t1 hk ht1 hadjN
    obtain ⟨x, t, hx, rfl, ht, n, hd⟩ := h.newcase3 hF hk ht1 d
    have sf : ∀ c, face (twin c) ≠ face c := by decide
    rcases hd with rfl | hd
    · exfalso
      simp only [n.adj] at hadjN
      obtain ⟨u2, hu2, -⟩ := hm.adj _ t x.edge ht
      have := hs.sur.fresh _ hadjN (outer_adj hx ht)
      rw [hu2] at this
      cases this
    · have fd : face d = face (twin x.edge) := by
        rcases hd with rfl | rfl | rfl
        · rfl
        · exact face_nfe _
        · exact face_pfe _
      refine ⟨?_, ?_⟩
      · rw [fd, n.flags]
        show (if face (twin x.edge) = face x.edge then _ else _) = _
        rw [if_neg (sf _)]
      · intro k0 hk0 t0 e ht0 he
        have a := n.tri2
        have c1 := t1.tri_nfe (twin x.edge)
        have c2 := t1.tri_pfe (twin x.edge)
        simp only [Tet.tri, Prod.mk.injEq] at a c1 c2
        rcases hd with rfl | rfl | rfl <;> simp only [Tet.tri, Prod.mk.injEq, c1, c2, a] at he
        · exact h.new_vertex ht0 _ he.2.2
        · exact h.new_vertex ht0 _ he.2.1
        · exact h.new_vertex ht0 _ he.1
  · intro a b hab
    -- the record of the edge
    obtain ⟨e, ue, h1, h2⟩ := hab
    have h3 : LockedEdge m' a b ↔ ue.locked = true := by
      constructor
      · rintro ⟨e', ue', g1, g2, g3⟩
        have := hm'.eunique e e' ue ue' h1 g1 (h2.trans g2.symm)
        rw [← this, h1] at g1
        cases g1
        exact g3
      · intro hl
        exact ⟨e, ue, h1, h2, hl⟩
    rw [h3]
    rcases hF.eonly e ue h1 with ⟨ue0, h4, h5⟩ | ⟨x, u, h4, h5, rfl⟩
    · obtain ⟨bw, h6, -⟩ := hF.eold e ue0 h4 h5
      rw [h1] at h6
      cases h6
      constructor
      · intro hl
        exact ⟨e, ue0, h4, h2, hl⟩
      · rintro ⟨e', ue', g1, g2, g3⟩
        have := hm.eunique e e' ue0 ue' h4 g1 (h2.trans g2.symm)
        rw [← this, h4] at g1
        cases g1
        exact g3
    · have h6 := hF.enew x u h4 h5
      rw [h1] at h6
      cases h6
      refine ⟨fun he => absurd he Bool.false_ne_true, ?_⟩
      rintro ⟨e', ue', g1, g2, g3⟩
      exfalso
      obtain ⟨k, t, i, g4, g5⟩ := hm.eused e' ue' g1
      obtain ⟨ue1, g6, g7⟩ := hm.eptr k t i g4
      rw [g5, g1] at g6
      cases g6
      rw [g2, ← h2] at g7
      have g7 : sorted2 (u, v) = sorted2 (t.first i, t.second i) := g7
      rcases (sorted2_pair_iff _ _ _ _).1 g7 with g8 | g8
      · exact h.new_vertex g4 _ (congrArg Prod.snd g8).symm
      · exact h.new_vertex g4 _ (congrArg Prod.snd g8).symm

theorem FI.tets_cases (h : FI m v B E) (hF : Flipped m v B E A mate η m') {k t'} (ht' : m'.tets.get k = some t') :
    (k ∉ E ∧ ∃ t, m.tets.get k = some t ∧ t' = patch E (Af A) t) ∨
    ∃ w t, Outer m E w ∧ k = A (fid w) ∧ m.tets.get w.tet = some t ∧ NT v A mate η w t t' := by
  rcases hF.only k (by rw [ht']; rfl) with ⟨h1, h2⟩ | ⟨w, hw, rfl⟩
  · obtain ⟨t, ht⟩ := Option.isSome_iff_exists.1 h2
    rw [hF.out k t h1 ht] at ht'
    exact .inl ⟨h1, t, ht, (Option.some.inj ht').symm⟩
  · obtain ⟨t, ht⟩ := h.get hw
    obtain ⟨t2, a1, a2⟩ := h.nt hF hw ht
    rw [ht'] at a1
    cases a1
    exact .inr ⟨w, t, hw, rfl, ht, a2 w rfl⟩

theorem FI.tidy' (h : FI m v B E) (hF : Flipped m v B E A mate η m') : Tidy m' := by
  refine ⟨?_, ?_, ?_, ?_⟩
  · intro k t' ht'
    rcases h.tets_cases hF ht' with ⟨-, t, ht, rfl⟩ | ⟨w, t, hw, rfl, ht, n⟩
    · exact h.tidy.tets k t ht
    · rw [n.flags]; exact ⟨rfl, rfl⟩
  · intro e ue he
    rcases hF.eonly e ue he with ⟨ue0, h4, h5⟩ | ⟨x, u, h4, h5, rfl⟩
    · obtain ⟨bw, h6, h7⟩ := hF.eold e ue0 h4 h5
      rw [he] at h6
      cases h6
      exact ⟨rfl, h7⟩
    · rw [hF.enew x u h4 h5] at he
      cases he
      exact ⟨rfl, rfl⟩
  · intro u x hx
    obtain ⟨L, hL, -⟩ := hF.verts
    rw [hL] at hx
    rcases setTets_some hx with ⟨-, h8⟩ | ⟨w, y, -, h8, rfl⟩
    · exact h.tidy.vertices _ _ h8
    · exact h.tidy.vertices _ y h8
  · rw [hF.eq]; exact h.tidy.ghost

theorem FI.unmarked (h : FI m v B E) (hF : Flipped m v B E A mate η m') (hu : Unmarked m) : Unmarked m' := by
  intro k t' ht'
  rcases h.tets_cases hF ht' with ⟨-, t, ht, rfl⟩ | ⟨w, t, hw, rfl, ht, n⟩
  · exact hu k t ht
  · rw [n.flags]; exact hu _ t ht

/-- What a vertex stores besides its walker. -/
def Vertex.payload (x : Vertex P V) : VFlags × P × V := (x.flags, x.position, x.value)

theorem setTets_payload (vs : IdMap (Vertex P V)) (L u) :
    ((setTets vs L).get u).map Vertex.payload = (vs.get u).map Vertex.payload := by
  rcases setTets_get vs L u with ⟨-, h⟩ | ⟨w, -, h⟩
  · rw [h]
  · rw [h, Option.map_map]; rfl

theorem FI.count (h : FI m v B E) (hF : Flipped m v B E A mate η m') : m'.tets.size + E.length = m.tets.size + B.length := by
  classical
  have h1 : m.tets.keys.Nodup := by
    rw [IdMapSpec.keys_eq]
    exact List.Nodup.filter _ List.nodup_range
  have h3 : ∀ j, j ∈ m.tets.keys ↔ (m.tets.get j).isSome := fun j => IdMap.mem_keys
  have h2 : m.tets.size = m.tets.keys.length := IdMap.size_of_keys h.cons.stored.2.2 m.tets.keys h1 h3
  revert h1 h2 h3
  generalize m.tets.keys = l
  intro h1 h3 h2
  have hN : (B.map fun b => A (fid b)).Nodup := by
    have h4 := h.fids
    rw [List.nodup_iff_pairwise_ne, List.pairwise_map] at h4 ⊢
    refine h4.imp_of_mem ?_
    intro a b ha hb hab he
    exact hab (hF.inj a b (h.outer_mem ha) (h.outer_mem hb) he)
  have h5 : m'.tets.size = (l.filter (fun k => k ∉ E) ++ B.map fun b => A (fid b)).length := by
    apply IdMap.size_of_keys hF.wf.2.2
    · rw [List.nodup_append]
      refine ⟨h1.filter _, hN, ?_⟩
      rintro a ha b hb rfl
      obtain ⟨ha1, ha2⟩ := List.mem_filter.1 ha
      obtain ⟨c, hc, rfl⟩ := List.mem_map.1 hb
      rcases hF.fresh c (h.outer_mem hc) with h6 | h6
      · simp [h6] at ha2
      · have := (h3 _).1 ha1
        rw [h6] at this
        cases this
    · intro j
      rw [List.mem_append, List.mem_filter, h3]
      constructor
      · rintro (⟨h6, h7⟩ | h6)
        · obtain ⟨t, ht⟩ := Option.isSome_iff_exists.1 h6
          rw [hF.out j t (by simpa using h7) ht]
          rfl
        · obtain ⟨b, hb, rfl⟩ := List.mem_map.1 h6
          obtain ⟨t, ht⟩ := h.get (h.outer_mem hb)
          obtain ⟨t', a1, -⟩ := h.nt hF (h.outer_mem hb) ht
          rw [a1]
          rfl
      · intro hj
        rcases hF.only j hj with ⟨h6, h7⟩ | ⟨w, hw, rfl⟩
        · exact .inl ⟨h7, by simpa using h6⟩
        · exact .inr (h.mem_new hw)
  have h6 : (l.filter (fun k => k ∈ E)).length = E.length := by
    apply List.Perm.length_eq
    apply (List.perm_ext_iff_of_nodup (h1.filter _) h.nodup).2
    intro k
    rw [List.mem_filter]
    constructor
    · intro hk; simpa using hk.2
    · intro hk; exact ⟨(h3 k).2 (h.fill.live k hk), by simpa using hk⟩
  have h7 := List.length_eq_length_filter_add (l := l) (fun k => decide (k ∈ E))
  have h8 : (fun k => decide (k ∉ E)) = fun k => !decide (k ∈ E) := by
    funext k; by_cases hk : k ∈ E <;> simp [hk]
  rw [h5, List.length_append, List.length_map, h8]
  omega

end
end Tet
