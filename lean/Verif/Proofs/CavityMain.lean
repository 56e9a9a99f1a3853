import Verif.Proofs.Cavity
import Verif.Proofs.Link

/-!
# What `point_cavity` returns
-/

namespace Tet
open Spec
variable {P V T : Type}

theorem ghostIdx_spec (t : Tet T) : match Mesh.ghostIdx t with
    | some i => t.vertices (face i) = GHOST
    | none => ∀ j, t.vertices j ≠ GHOST := by
  unfold Mesh.ghostIdx
  have f0 : face (0 : Code) = 0 := by decide
  have f1 : face (1 : Code) = 1 := by decide
  have f2 : face (2 : Code) = 2 := by decide
  have f3 : face (3 : Code) = 3 := by decide
  by_cases h0 : t.vertices 0 = GHOST
  · simp only [h0, if_true, f0]
  by_cases h1 : t.vertices 1 = GHOST
  · simp only [h0, h1, if_true, if_false, f1]
  by_cases h2 : t.vertices 2 = GHOST
  · simp only [h0, h1, h2, if_true, if_false, f2]
  by_cases h3 : t.vertices 3 = GHOST
  · simp only [h0, h1, h2, h3, if_true, if_false, f3]
  simp only [h0, h1, h2, h3, if_false]
  intro j
  fin_cases j
  exacts [h0, h1, h2, h3]

theorem inj_rearr {x y : Fin 4 → VId} (h : EvenRearr x y) (hx : Function.Injective x) : Function.Injective y := by
  obtain ⟨σ, -, h⟩ := h
  have : y = x ∘ σ := funext h
  rw [this]
  exact hx.comp σ.injective

theorem cavityInside_iff {m : Mesh P V T} (hm : ConsistentT m) (tests : CavityTests)
    (hs : ∀ p q, Function.Injective (quad p) → SameTet p q → tests.inSphere p = tests.inSphere q) {adj : Walker}
    (ha : (m.tets.get adj.tet).isSome) :
    ∃ b, m.cavityInside tests adj = some b ∧ (b = true ↔ Conflicts tests.inSphere m adj.tet) := by
  obtain ⟨t, ht⟩ := Option.isSome_iff_exists.1 ha
  have hsame : ∀ {k} (t : Tet T) e e', m.tets.get k = some t → tests.inSphere (t.tet e) = tests.inSphere (t.tet e') :=
    fun t e e' ht => hs _ _ (inj_rearr (t.rearr_tet e) (hm.distinct _ t ht)) (EvenRearr.trans (EvenRearr.symm (t.rearr_tet e)) (t.rearr_tet e'))
  have h4 : m.tet4 adj = some (t.tet adj.edge) := by simp [Mesh.tet4, ht]
  have hq : ∀ (w : Walker) q, w.tet = adj.tet → m.tet4 w = some q → tests.inSphere q = tests.inSphere (t.tet adj.edge) := by
    rintro ⟨k, e⟩ q hk h
    simp only at hk
    simp only [Mesh.tet4, hk, ht, Option.map_some, Option.some.injEq] at h
    rw [← h]
    exact hsame t _ _ ht
  simp only [Mesh.cavityInside, h4, ht, Option.bind_eq_bind, Option.bind_some]
  by_cases h0 : tests.inSphere (t.tet adj.edge) = 0
  · rw [if_pos h0]
    have hg := ghostIdx_spec t
    cases hgi : Mesh.ghostIdx t with
    | none =>
      rw [hgi] at hg
      refine ⟨_, rfl, ?_⟩
      simp only [h0, le_refl, decide_true, true_iff]
      refine ⟨adj, _, rfl, h4, .inr ⟨h0, ?_⟩⟩
      rintro ⟨k, e⟩ hk hf
      simp only at hk
      simp only [Mesh.fourth, hk, ht, Option.map_some, Option.some.injEq] at hf
      exact absurd hf (hg _)
    | some i =>
      rw [hgi] at hg
      simp only at hg
      obtain ⟨w', h1, h2, h3, -⟩ := toAdjAe_live hm (w := adj.toEdge i) ha
      obtain ⟨t', ht'⟩ := Option.isSome_iff_exists.1 h3
      have h4' : m.tet4 w' = some (t'.tet w'.edge) := by simp [Mesh.tet4, ht']
      simp only [h1, h4', Option.bind_some, Option.pure_def, Option.some.injEq, exists_eq_left',
        decide_eq_true_eq]
      have key : ∀ w : Walker, w.tet = adj.tet → face w.edge = face i →
          ∃ w'', m.toAdj w = some w'' ∧ m.tet4 w'' = some (t'.tet w''.edge) := by
        rintro ⟨k, e⟩ hk hf
        simp only at hk hf
        subst hk
        have hadj : m.toAdj ⟨adj.tet, e⟩ = some (t.adj e) := by simp [Mesh.toAdj, ht]
        refine ⟨_, hadj, ?_⟩
        have e2 := toAdj_across hadj
        have e3 : fid (⟨adj.tet, e⟩ : Walker) = fid (adj.toEdge i) := by
          simp only [fid, hf, Walker.toEdge]
        rw [e3, ← h2] at e2
        have e4 : (t.adj e).tet = w'.tet := congrArg Prod.fst e2
        simp [Mesh.tet4, e4, ht']
      constructor
      · intro h
        refine ⟨adj, _, rfl, h4, .inr ⟨h0, ?_⟩⟩
        intro w hk hf
        have hw : face w.edge = face i := by
          simp only [Mesh.fourth, hk, ht, Option.map_some, Option.some.injEq] at hf
          exact hm.distinct _ _ ht (hf.trans hg.symm)
        obtain ⟨w'', k1, k2⟩ := key w hk hw
        exact ⟨w'', _, k1, k2, by rw [hsame t' _ w'.edge ht']; exact h⟩
      · rintro ⟨w, q, hk, hw, h⟩
        rw [hq w q hk hw, h0] at h
        rcases h with h | ⟨-, h⟩
        · exact absurd h (lt_irrefl _)
        · have hf : m.fourth ⟨adj.tet, i⟩ = some GHOST := by
            simp only [Mesh.fourth, ht, Option.map_some]
            exact congrArg some hg
          obtain ⟨w'', q'', k1, k2, k3⟩ := h ⟨adj.tet, i⟩ rfl hf
          obtain ⟨w3, l1, l2⟩ := key ⟨adj.tet, i⟩ rfl rfl
          rw [k1] at l1
          cases l1
          rw [k2] at l2
          cases l2
          rw [hsame t' _ w''.edge ht']
          exact k3
  · rw [if_neg h0]
    refine ⟨_, rfl, ?_⟩
    rw [decide_eq_true_eq]
    constructor
    · intro h
      exact ⟨adj, _, rfl, h4, .inl (lt_of_le_of_ne h (Ne.symm h0))⟩
    · rintro ⟨w, q, hk, hw, h⟩
      rw [hq w q hk hw] at h
      rcases h with h | ⟨h, -⟩
      · exact h.le
      · exact absurd h h0

/-- The convex case. -/
theorem pointCavity_convex {m : Mesh P V T} (hm : ConsistentT m) (hu : Unmarked m) (tests : CavityTests)
    (hs : ∀ p q, Function.Injective (quad p) → SameTet p q → tests.inSphere p = tests.inSphere q) (exclude : List TId) (assertStar : Bool)
    {B : List Walker} {E : List TId} (hE : ∀ k ∈ E, (m.tets.get k).isSome) (hnd : E.Nodup) (hB : Boundary m E B)
    (ha : assertStar = true → ∀ w ∈ B, ∀ vs, m.tri w = some vs → tests.above vs = true) :
    ∃ n B' E', (∀ fuel, n ≤ fuel →
      Mesh.pointCavity tests B E exclude m true assertStar true fuel = some (m, B', E ++ E')) ∧ (E ++ E').Nodup ∧
      (∀ k, k ∈ E ++ E' ↔ Reached m (Conflicts tests.inSphere m) E k) ∧ Boundary m (E ++ E') B' := by
  have hBl : ∀ w ∈ B, (m.tets.get w.tet).isSome := by
    intro w hw
    exact hE _ ((hB.fids hE).2.2 _ (List.mem_map.2 ⟨w, hw, rfl⟩))
  obtain ⟨μ', B', E', h1, h2, h3, h4⟩ := grow_loop hm tests true
    (fun B' E' => (∀ x ∈ B'.map fid, ¬ Conflicts tests.inSphere m (across m x).1) ∧
      ∀ k ∈ E', Reached m (Conflicts tests.inSphere m) E k) (by
        intro μ tri Q B1 E1 adj hI hi hadj hJ _ hins
        have htl := hI.live _ (hI.queue tri (by simp))
        obtain ⟨w', k1, k2, k3, -⟩ := toAdjAe_live hm htl
        rw [hadj] at k1
        cases k1
        obtain ⟨b, b1, b2⟩ := cavityInside_iff hm tests hs k3
        rw [hins] at b1
        cases b1
        have hc := b2.1 rfl
        refine ⟨?_, hJ.1, ?_⟩
        · intro _ x hx he
          exact hJ.1 x hx (he ▸ hc)
        · intro k hk
          rcases List.mem_append.1 hk with hk | hk
          · exact hJ.2 k hk
          · rw [List.mem_singleton.1 hk]
            obtain ⟨t, ht⟩ := Option.isSome_iff_exists.1 htl
            have hadj' : m.toAdj tri = some (t.adj tri.edge) := by simp [Mesh.toAdj, ht]
            have e := toAdj_across hadj'
            rw [← k2] at e
            have e' : (t.adj tri.edge).tet = adj.tet := congrArg Prod.fst e
            have := Reached.step (hJ.2 tri.tet (hI.queue tri (by simp))) hadj' (e' ▸ hc)
            rwa [e'] at this)
      (by
        intro μ tri Q B1 E1 adj hI hi hadj hJ hins
        have htl := hI.live _ (hI.queue tri (by simp))
        obtain ⟨w', k1, k2, k3, -⟩ := toAdjAe_live hm htl
        rw [hadj] at k1
        cases k1
        obtain ⟨b, b1, b2⟩ := cavityInside_iff hm tests hs k3
        rw [hins rfl] at b1
        cases b1
        refine ⟨?_, hJ.2⟩
        intro x hx
        rw [List.map_append, List.mem_append] at hx
        rcases hx with hx | hx
        · exact hJ.1 x hx
        · simp only [List.map_cons, List.map_nil, List.mem_singleton] at hx
          rw [hx, ← k2]
          intro hc
          exact absurd (b2.2 hc) (by simp))
      _ _ _ _ _ (GrowInv.init hE hnd hB) ⟨by simp, fun k hk => .start hk⟩ (le_refl _)
  refine ⟨B.length + 4 * (m.tets.map.slots.length - E.length), B', E', ?_, h2.nodup, ?_, h2.boundary⟩
  · intro fuel hf
    have hmi := markInitial_fold tests assertStar B noMarks hBl ha
    rw [mark_none hu] at hmi
    unfold Mesh.pointCavity
    rw [hmi]
    simp only [Option.bind_eq_bind, Option.bind_some, if_true]
    rw [cavityGrow_mono hf h1]
    simp only [Option.bind_some, h2.nodup, if_true, Option.pure_def]
    rw [mark_eq hu]
    intro k hk
    refine ⟨?_, ?_, h2.notEnc k⟩
    · intro i
      rw [← Bool.not_eq_true]
      intro h'
      simpa using h2.queued k i hk h'
    · intro i
      rw [← Bool.not_eq_true, h2.limit k i hk]
      simp
  · intro k
    constructor
    · exact h4 k
    · intro h
      induction h with
      | start h => exact List.mem_append.2 (.inl h)
      | @step w w' _ hadj hc ih =>
        by_contra hn
        obtain ⟨b, hb, hst⟩ := (h2.boundary.exact w).2 ⟨ih, w', hadj, hn⟩
        have hf := (sameTri_iff _ _).1 hst
        have := h3 (fid b) (List.mem_map.2 ⟨b, hb, rfl⟩)
        rw [← hf, ← toAdj_across hadj] at this
        exact this hc

theorem edgeLocked_iff (m : Mesh P V T) (w : Walker) : m.edgeLocked w = some true ↔ EdgeLocked m w := by
  simp only [Mesh.edgeLocked, EdgeLocked, Option.bind_eq_bind, Option.bind_eq_some_iff, Option.pure_def,
    Option.some.injEq]
  constructor
  · rintro ⟨e, h1, ue, h2, h3⟩; exact ⟨e, ue, h1, h2, h3⟩
  · rintro ⟨e, ue, h1, h2, h3⟩; exact ⟨e, h1, ue, h2, h3⟩

/-- Walkers with the same edge agree on its id. -/
theorem undirEdge_of_edge {m : Mesh P V T} (hm : ConsistentT m) {w w' : Walker} {p : VId × VId}
    (h : m.edge w = some p) (h' : m.edge w' = some p) : m.undirEdge w = m.undirEdge w' := by
  simp only [Mesh.edge, Option.map_eq_some_iff] at h h'
  obtain ⟨t, ht, h⟩ := h
  obtain ⟨t', ht', h'⟩ := h'
  obtain ⟨ue, h1, h2⟩ := hm.eptr _ t w.edge ht
  obtain ⟨ue', h3, h4⟩ := hm.eptr _ t' w'.edge ht'
  have := hm.eunique _ _ _ _ h1 h3 (by rw [h2, h4, h, h'])
  simp [Mesh.undirEdge, ht, ht', this]

theorem Spec.EdgeLocked.ring {m : Mesh P V T} (hm : ConsistentT m) {w w' : Walker} (h : EdgeLocked m w)
    (hr : SameRing m w w') : EdgeLocked m w' := by
  obtain ⟨e, ue, h1, h2, h3⟩ := h
  have : ∃ p, m.edge w = some p := by
    simp only [Mesh.undirEdge, Option.map_eq_some_iff] at h1
    obtain ⟨t, ht, -⟩ := h1
    exact ⟨t.edge w.edge, by simp [Mesh.edge, ht]⟩
  obtain ⟨⟨a, b⟩, hp⟩ := this
  have := undirEdge_of_edge hm hp (ring_star hm hp hr).2
  exact ⟨e, ue, this ▸ h1, h2, h3⟩

theorem Spec.EdgeLocked.adj {m : Mesh P V T} (hm : ConsistentT m) {w w' : Walker} (h : EdgeLocked m w)
    (ha : m.toAdj w = some w') : EdgeLocked m w' := by
  obtain ⟨e, ue, h1, h2, h3⟩ := h
  simp only [Mesh.undirEdge, Option.map_eq_some_iff] at h1
  obtain ⟨t, ht, h1⟩ := h1
  have htri : m.tri w = some (t.first w.edge, t.second w.edge, t.third w.edge) := by simp [Mesh.tri, ht, Tet.tri]
  obtain ⟨w2, k1, k2⟩ := hm.adj_tri htri
  rw [ha] at k1
  cases k1
  simp only [Mesh.tri, Option.map_eq_some_iff, Tet.tri, Prod.mk.injEq] at k2
  obtain ⟨t', ht', k3, k4, -⟩ := k2
  obtain ⟨u, u1, u2⟩ := hm.eptr _ t w.edge ht
  obtain ⟨u', u3, u4⟩ := hm.eptr _ t' w'.edge ht'
  have := hm.eunique _ _ _ _ u1 u3 (by
    rw [u2, u4]
    simp only [Tet.edge, k3, k4, ← min_max_sorted2, min_comm, max_comm])
  refine ⟨e, ue, ?_, h2, h3⟩
  simp [Mesh.undirEdge, ht', ← this, h1]

theorem face_share : ∀ f g : Fin 4, f ≠ g → ∃ e, face e = f ∧ face (twin e) = g := by decide

/-- What the general growing loop keeps. -/
structure GrowKeeps (m : Mesh P V T) (inSphere : V4 → Int) (E0 E : List TId) : Prop where
  reached : ∀ k ∈ E, Reached m (Conflicts inSphere m) E0 k
  edges : ∀ w, EdgeLocked m w → Surrounded m E w → Surrounded m E0 w
  tris : ∀ w w', TriAndEdgesLocked m w → m.toAdj w = some w' → w.tet ∈ E → w'.tet ∈ E → w.tet ∈ E0 ∧ w'.tet ∈ E0

/-- Locked edges and triangles survive the growing loop. -/
theorem grow_locks {m : Mesh P V T} (hm : ConsistentT m) (tests : CavityTests)
    (hs : ∀ p q, Function.Injective (quad p) → SameTet p q → tests.inSphere p = tests.inSphere q) {E0 : List TId} {μ Q B E}
    (hI : GrowInv m false μ Q B E) (hJ : GrowKeeps m tests.inSphere E0 E) :
    ∀ fuel, Q.length + 4 * (m.tets.map.slots.length - E.length) ≤ fuel →
      ∃ μ' B' E', Mesh.cavityGrow tests false fuel ⟨mark m μ, Q, B, E⟩ = some ⟨mark m μ', [], B', E ++ E'⟩ ∧
        GrowInv m false μ' [] B' (E ++ E') ∧ GrowKeeps m tests.inSphere E0 (E ++ E') := by
  intro fuel hf
  refine grow_loop hm tests false (fun _ E => GrowKeeps m tests.inSphere E0 E)
    ?_ (fun _ _ _ _ _ _ _ _ _ h _ => h) fuel _ _ _ _ hI hJ hf
  clear hf hI hJ
  intro μ tri Q B E adj hI hi hadj hJ hsafe hins
  obtain ⟨hsf, hnb⟩ := hsafe rfl
  have htl := hI.live _ (hI.queue tri (by simp))
  obtain ⟨w', k1, k2, k3, k4, k5⟩ := toAdjAe_live hm htl
  rw [hadj] at k1
  cases k1
  have haE : adj.tet ∉ E := by
    have := ((hI.imm _ _ htl).1 hi).2.1
    rw [← show fid adj = across m (tri.tet, face tri.edge) from k2] at this
    exact this
  -- triangles of the new tet towards the cavity vanish
  have hvan : ∀ x : TId × Fin 4, x.1 = adj.tet → (across m x).1 ∈ E →
      Vanishes m { μ with imm := upd μ.imm tri.tet (face tri.edge) false } adj x := by
    intro x hx hxE
    obtain ⟨a1, a2, a3⟩ := across_live hm (x := x) (by rw [hx]; exact k3)
    by_cases hxt : across m x = fid tri
    · left
      rw [hxt, ← k2] at a3
      exact a3.symm
    · right
      have hy : across m x ∉ B.map fid := by
        intro h'
        have := hnb _ h'
        rw [a3] at this
        exact this hx
      have := (hI.imm (across m x).1 (across m x).2 a1).2 ⟨hxE, by
        show (across m (across m x)).1 ∉ E
        rw [a3, hx]
        exact haE, hy⟩
      show upd μ.imm tri.tet (face tri.edge) false (across m x).1 (across m x).2 = true
      simp only [upd]
      rw [if_neg]
      · exact this
      · rintro ⟨g, g'⟩
        exact hxt (Prod.ext g g')
  -- an edge between two such triangles is not locked
  have hun : ∀ w : Walker, w.tet = adj.tet → (across m (fid w)).1 ∈ E → (across m (fid w.twin)).1 ∈ E →
      ¬ EdgeLocked m w := by
    intro w hw h1 h2 hl
    have := hsf.edge w hw (hvan _ hw h1) (hvan _ hw h2)
    rw [(edgeLocked_iff m w).2 hl] at this
    cases this
  refine ⟨by simp, ?_, ?_, ?_⟩
  · intro k hk
    rcases List.mem_append.1 hk with hk | hk
    · exact hJ.1 k hk
    · rw [List.mem_singleton.1 hk]
      obtain ⟨b, b1, b2⟩ := cavityInside_iff hm tests hs k3
      rw [hins] at b1
      cases b1
      have hc := b2.1 rfl
      obtain ⟨t, ht⟩ := Option.isSome_iff_exists.1 htl
      have hadj' : m.toAdj tri = some (t.adj tri.edge) := by simp [Mesh.toAdj, ht]
      have e := toAdj_across hadj'
      rw [← k2] at e
      have e' : (t.adj tri.edge).tet = adj.tet := congrArg Prod.fst e
      have := Reached.step (hJ.1 tri.tet (hI.queue tri (by simp))) hadj' (e' ▸ hc)
      rwa [e'] at this
  · intro w hl hsur
    by_cases hall : Surrounded m E w
    · exact hJ.2 w hl hall
    · exfalso
      simp only [Surrounded, not_forall] at hall
      obtain ⟨w1, hr, hn⟩ := hall
      have hw1 : w1.tet = adj.tet := by
        have := hsur w1 hr
        rw [List.mem_append, List.mem_singleton] at this
        exact this.resolve_left hn
      have hw1l : (m.tets.get w1.tet).isSome := by rw [hw1]; exact k3
      obtain ⟨t, ht⟩ := Option.isSome_iff_exists.1 hw1l
      have mem : ∀ z : Walker, SameRing m w z → z.tet ≠ adj.tet → z.tet ∈ E := by
        intro z hz hne
        have := hsur z hz
        rw [List.mem_append, List.mem_singleton] at this
        exact this.resolve_right hne
      have ha1 : m.toAdj w1 = some (t.adj w1.edge) := by simp [Mesh.toAdj, ht]
      have ha2 : m.toAdj w1.twin = some (t.adj (twin w1.edge)) := by simp [Mesh.toAdj, Walker.twin, ht]
      have n1 := (across_live hm (x := fid w1) hw1l).2.1
      have n2 := (across_live hm (x := fid w1.twin) hw1l).2.1
      have hback := hm.adj_back ha1
      refine hun w1 hw1 ?_ ?_ (EdgeLocked.ring hm hl hr)
      · rw [← toAdj_across ha1] at n1 ⊢
        have : (t.adj w1.edge).twin.tet ∈ E := mem _ (.back hr (by rw [Walker.twin_twin]; exact hback))
          (fun h => n1 (h.trans hw1.symm))
        exact this
      · rw [← toAdj_across ha2] at n2 ⊢
        exact mem _ (.step hr ha2) (fun h => n2 (h.trans hw1.symm))
  · intro w w' hl hadj' hw hw'
    rw [List.mem_append, List.mem_singleton] at hw hw'
    -- not a triangle of the new tet
    have key : ∀ z z', TriAndEdgesLocked m z → m.toAdj z = some z' → z.tet = adj.tet → z'.tet ∈ E → False := by
      intro z z' hz hzz hza hzE
      have hzE' : (across m (fid z)).1 ∈ E := by rw [← toAdj_across hzz]; exact hzE
      by_cases hface : face z.edge = face adj.edge
      · have h1 := hsf.tri
        have h2 := hz.1
        simp only [Mesh.triLocked, hza, hface] at h1 h2
        rw [h1] at h2
        cases h2
      · obtain ⟨e, he1, he2⟩ := face_share _ _ hface
        have hE2 : (across m (fid (⟨adj.tet, e⟩ : Walker).twin)).1 ∈ E := by
          have : fid (⟨adj.tet, e⟩ : Walker).twin = fid adj := by simp [fid, Walker.twin, he2]
          rw [this, k5]
          exact hI.queue tri (by simp)
        have hE1 : (across m (fid (⟨adj.tet, e⟩ : Walker))).1 ∈ E := by
          have : fid (⟨adj.tet, e⟩ : Walker) = fid z := by simp [fid, he1, hza]
          rw [this]
          exact hzE'
        refine hun ⟨adj.tet, e⟩ rfl hE1 hE2 ?_
        obtain ⟨zk, ze⟩ := z
        simp only at hza
        subst hza
        rcases (face_eq_iff ze e).1 he1.symm with rfl | rfl | rfl
        · exact hz.2.1
        · exact hz.2.2.1
        · exact hz.2.2.2
    have hsym : TriAndEdgesLocked m w' := by
      refine ⟨(hm.toSpec.locks w w' hadj').trans hl.1, hl.2.1.adj hm hadj', ?_, ?_⟩
      · exact hl.2.2.2.adj hm (by rw [Mesh.toAdj_pfe, hadj']; rfl)
      · exact hl.2.2.1.adj hm (by rw [Mesh.toAdj_nfe, hadj']; rfl)
    have hne : w'.tet ≠ w.tet := by
      have hwl : (m.tets.get w.tet).isSome := by
        cases h : m.tets.get w.tet with
        | none => simp [Mesh.toAdj, h] at hadj'
        | some _ => rfl
      have := (across_live hm (x := fid w) hwl).2.1
      rw [← toAdj_across hadj'] at this
      exact this
    rcases hw with hw | hw <;> rcases hw' with hw' | hw'
    · exact hJ.3 w w' hl hadj' hw hw'
    · exact (key w' w hsym (hm.adj_back hadj') hw' hw).elim
    · exact (key w w' hl hadj' hw hw').elim
    · exact absurd (hw'.trans hw.symm) hne

/-- The general case. -/
theorem pointCavity_general {m : Mesh P V T} (hm : ConsistentT m) (hu : Unmarked m) (tests : CavityTests)
    (hs : ∀ p q, Function.Injective (quad p) → SameTet p q → tests.inSphere p = tests.inSphere q)
    (hrot : ∀ s t, Rotation s t → tests.above s = tests.above t) (exclude : List TId) (assertStar remove : Bool)
    {B : List Walker} {E : List TId} (hE : ∀ k ∈ E, (m.tets.get k).isSome) (hnd : E.Nodup) (hB : Boundary m E B)
    (ha : assertStar = true → ∀ w ∈ B, ∀ vs, m.tri w = some vs → tests.above vs = true) :
    ∃ n E' S B', (∀ fuel, n ≤ fuel →
      Mesh.pointCavity tests B E exclude m false assertStar remove fuel =
        if S = [] then none else some (m, B', S)) ∧
      (remove = false → E' = []) ∧ GrowKeeps m tests.inSphere E (E ++ E') ∧ S.Nodup ∧ Boundary m S B' ∧
      Visible m tests.above exclude (E ++ E') (· ∈ S) ∧
      ∀ U, Visible m tests.above exclude (E ++ E') U → ∀ k, U k → k ∈ S := by
  have hBl : ∀ w ∈ B, (m.tets.get w.tet).isSome := by
    intro w hw
    exact hE _ ((hB.fids hE).2.2 _ (List.mem_map.2 ⟨w, hw, rfl⟩))
  have hmi := markInitial_fold tests assertStar B noMarks hBl ha
  rw [mark_none hu] at hmi
  have hK0 : GrowKeeps m tests.inSphere E E := ⟨fun k hk => .start hk, fun _ _ h => h, fun _ _ _ _ h1 h2 => ⟨h1, h2⟩⟩
  have hI0 := GrowInv.init (convex := false) hE hnd hB
  cases remove with
  | false =>
    obtain ⟨n, S, B', h1, h2, h3, h4, h5⟩ := pointCavity_shrink hm hu tests hrot exclude
      (μ := { noMarks with imm := setAll noMarks.imm B true }) hE hnd hB hI0.queued (by simp [noMarks]) hI0.notEnc
    refine ⟨n, [], S, B', ?_, fun _ => rfl, by simpa using hK0, h2, h3, by simpa using h4, by simpa using h5⟩
    intro fuel hf
    have := h1 fuel hf
    unfold Mesh.pointCavity
    rw [hmi]
    simp only [Option.bind_eq_bind, Option.bind_some, Bool.false_eq_true, if_false] at this ⊢
    rw [this]
    split_ifs with hS
    · rfl
    · simp [h2]
  | true =>
    obtain ⟨μ', B1, E', g1, g2, g3⟩ := grow_locks hm tests hs hI0 hK0 _ (le_refl _)
    obtain ⟨n, S, B', h1, h2, h3, h4, h5⟩ := pointCavity_shrink hm hu tests hrot exclude
      (μ := μ') g2.live g2.nodup g2.boundary
      (fun k f hk h => by simpa using g2.queued k f hk h) (fun k f hk h => ((g2.limit k f hk).1 h).2) g2.notEnc
    refine ⟨max n (B.length + 4 * (m.tets.map.slots.length - E.length)), E', S, B', ?_, by simp, g3, h2, h3, h4, h5⟩
    intro fuel hf
    have := h1 fuel (by omega)
    unfold Mesh.pointCavity
    rw [hmi]
    simp only [Option.bind_eq_bind, Option.bind_some, Bool.false_eq_true, if_false, if_true] at this ⊢
    rw [cavityGrow_mono (le_trans (le_max_right _ _) hf) g1]
    simp only [Option.bind_some]
    rw [this]
    split_ifs with hS
    · rfl
    · simp [h2]

end Tet
