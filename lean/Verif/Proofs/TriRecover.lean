import Verif.Proofs.TriPaved

/-!
# Recovering a triangle with Steiner points: the start of the loop, and the whole
-/

namespace Tet
open Spec Vec4

variable {K V T C : Type} [Field K] [LinearOrder K] [IsStrictOrderedRing K] {m m1 m2 m3 : Mesh (Pt K) V T}
variable {xy : Pt K → K × K} {p0 p1 p2 X Y Z : Pt K}

/-! ### The boundary -/

/-- The triangle is on the left of its edges. -/
theorem Flat.left (hf : Flat xy p0 p1 p2 X Y Z) {c : Pt K} (hc : InClosedTri p0 p1 p2 c) :
    0 ≤ planeSide (xy p0) (xy p1) (xy c) ∧ 0 ≤ planeSide (xy p1) (xy p2) (xy c) ∧ 0 ≤ planeSide (xy p2) (xy p0) (xy c) := by
  obtain ⟨ka, kb, kc, h1, h2, h3, hk, rfl⟩ := hc
  have hp := hf.pos.le
  have z : ∀ a b : K × K, planeSide a b a = 0 ∧ planeSide a b b = 0 := by
    intro a b
    unfold planeSide
    constructor <;> ring
  refine ⟨?_, ?_, ?_⟩ <;> rw [hf.side_comb hk]
  · rw [(z _ _).1, (z _ _).2]
    nlinarith [mul_nonneg h3 hp]
  · rw [(z (xy p1) (xy p2)).1, (z (xy p1) (xy p2)).2, planeSide_turn]
    nlinarith [mul_nonneg h1 hp]
  · rw [(z (xy p2) (xy p0)).1, (z (xy p2) (xy p0)).2, planeSide_turn, planeSide_turn]
    nlinarith [mul_nonneg h2 hp]

theorem planeSide_part (a b c : K × K) (s t : K) :
    planeSide (a.1 + s * (b.1 - a.1), a.2 + s * (b.2 - a.2)) (a.1 + t * (b.1 - a.1), a.2 + t * (b.2 - a.2)) c = (t - s) * planeSide a b c := by
  unfold planeSide
  ring

theorem pairs_chain {α : Type} {R : α → K → Prop} : ∀ {l : List α} {ts : List K}, List.Forall₂ R l ts → ts.IsChain (· < ·) →
    ∀ e ∈ Spec.pairs l, ∃ s t, s < t ∧ R e.1 s ∧ R e.2 t
  | _, _, .nil, _, e, he => by cases he
  | _, _, .cons _ .nil, _, e, he => by cases he
  | _, _, .cons h1 (.cons h2 hr), hc, e, he => by
    obtain ⟨k1, k2⟩ := List.isChain_cons_cons.1 hc
    simp only [Spec.pairs, List.mem_cons] at he
    rcases he with rfl | he
    · exact ⟨_, _, k1, h1, h2⟩
    · exact pairs_chain (.cons h2 hr) k2 e he

theorem chain_mem {ts : List K} (h : (0 :: ts ++ [1]).IsChain (· < ·)) {t : K} (ht : t ∈ ts) : 0 < t ∧ t < 1 := by
  have := List.isChain_iff_pairwise.1 h
  rw [List.cons_append, List.pairwise_cons, List.pairwise_append] at this
  exact ⟨this.1 t (by simp [ht]), this.2.2.2 t ht 1 (by simp)⟩

theorem forall₂_ends {a b : Pt K} {va vb : VId} {l : List VId} {ts : List K} (ha : At m va a) (hb : At m vb b)
    (hl : List.Forall₂ (fun s t => At m s (along a b t)) l ts) :
    List.Forall₂ (fun s t => At m s (along a b t)) (va :: l ++ [vb]) (0 :: ts ++ [1]) := by
  have h1 : along a b 0 = a := by simp [along]
  have h2 : along a b 1 = b := by simp [along]
  refine .cons (by rw [h1]; exact ha) ?_
  clear ha
  induction hl with
  | nil => exact .cons (by rw [h2]; exact hb) .nil
  | cons h _ ih => exact .cons h ih

/-- The pieces of a side of the triangle. -/
theorem side_outer (hf : Flat xy p0 p1 p2 X Y Z) {a b : Pt K} {va vb : VId} {l : List VId} {ts : List K} (ha : At m va a) (hb : At m vb b)
    (hl : List.Forall₂ (fun s t => At m s (along a b t)) l ts) (hc : (0 :: ts ++ [1]).IsChain (· < ·))
    (hs : ∀ c, InClosedTri p0 p1 p2 c → 0 ≤ planeSide (xy a) (xy b) (xy c)) {e : VId × VId} (he : e ∈ Spec.pairs (va :: l ++ [vb])) :
    ∃ pa pb, At m e.1 pa ∧ At m e.2 pb ∧ ∀ pc, InClosedTri p0 p1 p2 pc → 0 ≤ planeSide (xy pa) (xy pb) (xy pc) := by
  obtain ⟨s, t, hst, h1, h2⟩ := pairs_chain (forall₂_ends ha hb hl) hc e he
  refine ⟨_, _, h1, h2, fun pc hpc => ?_⟩
  rw [hf.xy_along, hf.xy_along, planeSide_part]
  exact mul_nonneg (by linarith) (hs pc hpc)

theorem Spec.InClosedTri.corner : InClosedTri p0 p1 p2 p0 ∧ InClosedTri p0 p1 p2 p1 ∧ InClosedTri p0 p1 p2 p2 :=
  ⟨⟨1, 0, 0, by simp, le_rfl, le_rfl, by ring, by rw [comb3]; simp⟩, ⟨0, 1, 0, le_rfl, by simp, le_rfl, by ring, by rw [comb3]; simp⟩,
    ⟨0, 0, 1, le_rfl, le_rfl, by simp, by ring, by rw [comb3]; simp⟩⟩

theorem Spec.InClosedTri.along {a b : Pt K} (ha : InClosedTri p0 p1 p2 a) (hb : InClosedTri p0 p1 p2 b) {t : K} (h0 : 0 < t) (h1 : t < 1) :
    InClosedTri p0 p1 p2 (Spec.along a b t) := by
  refine ha.trans hb ha ⟨1 - t, t, 0, by linarith, h0.le, le_rfl, by ring, ?_⟩
  rw [along_comb]

/-! ### Inserting the boundary -/

theorem insertLoop_ok {ops : CdtOps K C} (hc : IsCdt ops) : ∀ (l D : List VId) (cdt : C) (into : VId → Option Nat) (fr : Nat → Option VId)
    (r : C × (VId → Option Nat) × (Nat → Option VId)), insertLoop ops xy m l cdt into fr = some r → (D ++ l).Nodup → (∀ v ∈ l, ∃ p, At m v p) →
    (∀ v ∈ D, ∃ p i, At m v p ∧ into v = some i ∧ ops.vertex cdt i = some (xy p)) → (∀ i v, fr i = some v → v ∈ D ∧ into v = some i) →
    (∀ v ∈ D ++ l, ∃ p i, At m v p ∧ r.2.1 v = some i ∧ ops.vertex r.1 i = some (xy p)) ∧ ∀ i v, r.2.2 i = some v → v ∈ D ++ l ∧ r.2.1 v = some i
  | [], D, cdt, into, fr, r, h, _, _, h1, h2 => by
    cases h
    rw [List.append_nil]
    exact ⟨h1, h2⟩
  | v :: l, D, cdt, into, fr, r, h, hn, hat, h1, h2 => by
    obtain ⟨p, hp⟩ := hat v (by simp)
    simp only [insertLoop, idx_of_At hp, Option.bind_eq_bind, Option.bind_some] at h
    have hv : v ∉ D := by
      rw [List.nodup_append] at hn
      exact fun hd => hn.2.2 v hd v (by simp) rfl
    have := insertLoop_ok hc l (D ++ [v]) _ _ _ r h (by simpa using hn) (fun u hu => hat u (by simp [hu])) ?_ ?_
    · simpa using this
    · intro u hu
      rcases List.mem_append.1 hu with hu | hu
      · obtain ⟨q, i, k1, k2, k3⟩ := h1 u hu
        exact ⟨q, i, k1, (Function.update_of_ne (show u ≠ v from fun e => hv (e ▸ hu)) _ _).trans k2, hc.keep _ _ _ _ k3⟩
      · obtain rfl := List.mem_singleton.1 hu
        exact ⟨p, _, hp, Function.update_self .., hc.insert _ _⟩
    · intro i u hu
      by_cases hj : i = (ops.insert cdt (xy p)).2
      · subst hj
        rw [Function.update_self] at hu
        cases hu
        exact ⟨by simp, Function.update_self ..⟩
      · rw [Function.update_of_ne hj] at hu
        obtain ⟨k1, k2⟩ := h2 i u hu
        exact ⟨List.mem_append_left _ k1, (Function.update_of_ne (show u ≠ v from fun e => hv (e ▸ k1)) _ _).trans k2⟩

theorem constrain_ok {ops : CdtOps K C} (hc : IsCdt ops) {into : VId → Option Nat} : ∀ (l : List (VId × VId)) (cdt cdt' : C),
    l.foldlM (constrain ops into) cdt = some cdt' → ∀ i, ops.vertex cdt' i = ops.vertex cdt i
  | [], cdt, cdt', h, i => by cases h; rfl
  | e :: l, cdt, cdt', h, i => by
    rw [List.foldlM_cons, Option.bind_eq_bind] at h
    obtain ⟨c1, h1, h⟩ := Option.bind_eq_some_iff.1 h
    rw [constrain_ok hc l c1 cdt' h i]
    simp only [constrain, Option.bind_eq_bind] at h1
    obtain ⟨a, -, h1⟩ := Option.bind_eq_some_iff.1 h1
    obtain ⟨b, -, h1⟩ := Option.bind_eq_some_iff.1 h1
    split_ifs at h1
    cases h1
    exact hc.constraint ..

/-! ### The three edges -/

theorem Spec.Chained.full {v0 v1 : VId} {a b : Pt K} {x : V} {l : List VId} (h : Chained m m1 v0 v1 a b x l) (hf : FullLocks m) : FullLocks m1 :=
  fun u v w hl => (h.edges u v).2 (.inl (hf u v w (h.tris _ hl)))

theorem Spec.Chained.tri_iff {v0 v1 : VId} {a b : Pt K} {x : V} {l : List VId} (h : Chained m m1 v0 v1 a b x l) (hs : Sound m) (hf : FullLocks m)
    (s : V3) : LockedTri m1 s ↔ LockedTri m s := by
  refine ⟨h.tris s, fun hl => ?_⟩
  obtain ⟨k1, k2, k3⟩ := hf.all hs.consistent (a := s.1) (b := s.2.1) (c := s.2.2) hl
  exact h.kept _ _ _ hl k1 k2 k3

theorem Spec.Grown.dots {a b : Pt K} {x : V} {l l' : List VId} (h : Grown m m1 l') (hd : Dots m a b x l) : Dots m1 a b x l := by
  obtain ⟨⟨ts, h1, h2⟩, h3⟩ := hd
  exact ⟨⟨ts, h1.imp fun _ _ k => h.at k, h2⟩, fun s hs => h.value (h3 s hs)⟩

theorem forall₂_partner {α β : Type} {R : α → β → Prop} {l : List α} {r : List β} (h : List.Forall₂ R l r) {a : α} (ha : a ∈ l) : ∃ b ∈ r, R a b := by
  induction h with
  | nil => cases ha
  | cons h _ ih =>
    rcases List.mem_cons.1 ha with rfl | ha
    · exact ⟨_, by simp, h⟩
    · obtain ⟨b, hb, k⟩ := ih ha
      exact ⟨b, by simp [hb], k⟩

/-- `recover_tri_with_steiner_points` -/
theorem recoverTri_gives {env : SteinerEnv K C} (hc : IsCdt env.ops) (ho : ∀ l, (env.orderE l).Perm l) (steps depth rounds : Nat) (hs : Sound m)
    (hfull : FullLocks m) {t : V3} {x0 x1 x2 : V} (h0 : At m t.1 p0) (h1 : At m t.2.1 p1) (h2 : At m t.2.2 p2)
    (v0 : ∃ y, m.vertices.get t.1 = some y ∧ y.value = x0) (v1 : ∃ y, m.vertices.get t.2.1 = some y ∧ y.value = x1)
    (v2 : ∃ y, m.vertices.get t.2.2 = some y ∧ y.value = x2) (hflat : Flattens (env.xy p0 p1 p2) p0 p1 p2) :
    GivesOnly (fun fuel => recoverTriWithSteiner env fuel steps depth rounds t m) fun _ r =>
      TriRecovered m r.1 t p0 p1 p2 x0 x1 x2 r.2.1 r.2.2.1 r.2.2.2.1 r.2.2.2.2 := by
  obtain ⟨X, Y, Z, hf⟩ := Flattens.flat hflat
  simp only [recoverTriWithSteiner, triStart, Option.bind_eq_bind, Option.bind_assoc, Option.pure_def, Option.bind_some]
  obtain ⟨r0, hr0, hq0⟩ := recoverSteiner_does steps depth m hs h0 h1 v0
  refine GivesOnly.bind hr0 fun a ha => ?_
  subst ha
  rcases hq0 with ⟨h, -⟩ | ⟨ma, l0, h, A⟩
  · cases h
  cases h
  have gA := A.grown
  obtain ⟨r1, hr1, hq1⟩ := recoverSteiner_does steps depth ma A.sound (gA.at h1) (gA.at h2) (gA.value v1)
  refine GivesOnly.bind hr1 fun b hb => ?_
  subst hb
  rcases hq1 with ⟨h, -⟩ | ⟨mb, l1, h, B⟩
  · cases h
  cases h
  have gB := B.grown
  have gAB := gA.trans gB
  obtain ⟨r2, hr2, hq2⟩ := recoverSteiner_does steps depth mb B.sound (gAB.at h2) (gAB.at h0) (gAB.value v2)
  refine GivesOnly.bind hr2 fun c hcc => ?_
  subst hcc
  rcases hq2 with ⟨h, -⟩ | ⟨m3, l2, h, D⟩
  · cases h
  cases h
  have gD := D.grown
  have g3 := gAB.trans gD
  have a0 := g3.at h0
  have a1 := g3.at h1
  have a2 := g3.at h2
  have dots0 : Dots m3 p0 p1 x0 l0 := (gB.trans gD).dots ⟨A.on, A.value⟩
  have dots1 : Dots m3 p1 p2 x1 l1 := gD.dots ⟨B.on, B.value⟩
  have dots2 : Dots m3 p2 p0 x2 l2 := ⟨D.on, D.value⟩
  have full3 : FullLocks m3 := D.full (B.full (A.full hfull))
  have tri3 : ∀ s, LockedTri m3 s ↔ LockedTri m s := fun s =>
    (D.tri_iff B.sound (B.full (A.full hfull)) s).trans ((B.tri_iff A.sound (A.full hfull) s).trans (A.tri_iff hs hfull s))
  have edge3 : ∀ a b, LockedEdge m3 a b ↔ LockedEdge m a b ∨ (a, b) ∈ sidePairs t l0 l1 l2 ∨ (b, a) ∈ sidePairs t l0 l1 l2 := by
    intro a b
    rw [D.edges, B.edges, A.edges]
    simp only [sidePairs, List.mem_append]
    tauto
  obtain ⟨⟨ts0, f0, c0⟩, -⟩ := id dots0
  obtain ⟨⟨ts1, f1, c1⟩, -⟩ := id dots1
  obtain ⟨⟨ts2, f2, c2⟩, -⟩ := id dots2
  -- the loop around the triangle
  have hnd : (triLoop t l0 l1 l2).Nodup := by
    have n0 : ∀ {v p}, At m v p → v ∉ l0 ++ l1 ++ l2 := fun ⟨_, _, hx, _⟩ => g3.not_mem hx
    have e0 := n0 h0
    have e1 := n0 h1
    have e2 := n0 h2
    have hl := g3.nodup
    have hp := hf.pos
    have d01 : t.1 ≠ t.2.1 := by
      intro e
      rw [e] at a0
      rw [at_same a0 a1] at hp
      simp [planeSide, mul_comm] at hp
    have d12 : t.2.1 ≠ t.2.2 := by
      intro e
      rw [e] at a1
      rw [at_same a1 a2] at hp
      simp [planeSide] at hp
    have d20 : t.2.2 ≠ t.1 := by
      intro e
      rw [e] at a2
      rw [at_same a2 a0] at hp
      simp [planeSide] at hp
    simp only [List.mem_append, not_or] at e0 e1 e2
    simp only [triLoop, List.nodup_append, List.nodup_cons, List.mem_append, List.mem_cons, List.cons_append] at hl ⊢
    grind
  have hclosed : ∀ v ∈ triLoop t l0 l1 l2, ∃ p, At m3 v p ∧ InClosedTri p0 p1 p2 p := by
    obtain ⟨q0, q1, q2⟩ := InClosedTri.corner (p0 := p0) (p1 := p1) (p2 := p2)
    have hdot : ∀ {a b : Pt K} {l ts}, List.Forall₂ (fun s t => At m3 s (along a b t)) l ts → (0 :: ts ++ [1]).IsChain (· < ·) →
        InClosedTri p0 p1 p2 a → InClosedTri p0 p1 p2 b → ∀ v ∈ l, ∃ p, At m3 v p ∧ InClosedTri p0 p1 p2 p := by
      intro a b l ts k1 k2 k3 k4 v hv
      obtain ⟨s, hs', k5⟩ := forall₂_partner k1 hv
      obtain ⟨k6, k7⟩ := chain_mem k2 hs'
      exact ⟨_, k5, k3.along k4 k6 k7⟩
    intro v hv
    simp only [triLoop, List.mem_append, List.mem_cons, List.cons_append] at hv
    rcases hv with rfl | (hv | rfl | hv) | rfl | hv
    · exact ⟨p0, a0, q0⟩
    · exact hdot f0 c0 q0 q1 v hv
    · exact ⟨p1, a1, q1⟩
    · exact hdot f1 c1 q1 q2 v hv
    · exact ⟨p2, a2, q2⟩
    · exact hdot f2 c2 q2 q0 v hv
  have hF : Framed m3 (env.xy p0 p1 p2) p0 p1 p2 (triLoop t l0 l1 l2) (sidePairs t l0 l1 l2) := by
    refine ⟨fun e he => ?_, fun e he => ?_, fun e he => (edge3 _ _).2 (.inr (.inl he))⟩
    · rw [← around_eq] at he
      exact around_mem he
    · simp only [sidePairs, List.mem_append] at he
      rcases he with (he | he) | he
      · exact side_outer hf a0 a1 f0 c0 (fun c hc' => (hf.left hc').1) he
      · exact side_outer hf a1 a2 f1 c1 (fun c hc' => (hf.left hc').2.1) he
      · exact side_outer hf a2 a0 f2 c2 (fun c hc' => (hf.left hc').2.2) he
  simp only [idx_of_At a0, idx_of_At a1, idx_of_At a2, Option.bind_eq_bind, Option.bind_some]
  refine GivesOnly.bind (settles_const _) fun r hr => ?_
  refine GivesOnly.bind (settles_const _) fun cdt hcdt => ?_
  obtain ⟨i1, i2⟩ := insertLoop_ok hc _ [] _ _ _ r hr (by simpa using hnd) (fun v hv => by
    obtain ⟨p, k, -⟩ := hclosed v hv
    exact ⟨p, k⟩) (by simp) (by simp)
  have i3 := constrain_ok hc _ _ _ hcdt
  have hinv : LoopInv env.ops (env.xy p0 p1 p2) p0 p1 p2 x0 m3 (triLoop t l0 l1 l2) (sidePairs t l0 l1 l2)
      ⟨m3, cdt, triLoop t l0 l1 l2, (around (triLoop t l0 l1 l2)).dedup, r.2.1, r.2.2, []⟩ [] := by
    refine ⟨D.sound, full3, ⟨by simp, by simp, by simp, fun _ _ => rfl, by simp, rfl⟩, by simp, ?_, ?_, by simp, List.nodup_dedup _, ?_, by simp, by simp, by simp, by simp⟩
    · intro v hv
      obtain ⟨p, i, k1, k2, k3⟩ := i1 v (by simpa using hv)
      obtain ⟨p', k4, k5⟩ := hclosed v hv
      rw [at_same k4 k1] at k5
      exact ⟨p, i, k1, k5, k2, (i3 i).trans k3⟩
    · intro i v h
      simpa using i2 i v h
    · intro e
      simp [List.mem_dedup, around_eq]
  obtain ⟨N, hN⟩ := loop_gives (tri := t) hc ho hf hF (g3.value v0) rounds _ _ hinv
  refine ⟨N, fun n hn x hx _ _ _ _ _ => ?_⟩
  obtain ⟨st, hst, hx⟩ := Option.bind_eq_some_iff.1 hx
  cases hx
  obtain ⟨ps, hi, hE⟩ := hN n hn st hst
  have hLn : (sidePairs t l0 l1 l2).Nodup := by
    rw [← around_eq]
    exact around_nodup hnd
  have gF := hi.grown
  refine ⟨hi.sound, g3.trans gF, ⟨gF.dots dots0, gF.dots dots1, gF.dots dots2⟩, fun s hs' => ?_, ps,
    hi.paved hf hF hE rfl hLn a0 a1 a2 f0 c0 f1 c1 f2 c2, ?_, fun e he => mem_pieceSides.1 (hi.boundary hE he), fun s => ?_, fun a b => ?_⟩
  · obtain ⟨y, k1, k2⟩ := hi.val s hs'
    obtain ⟨q, i, ⟨-, z, k3, k4⟩, k5, -⟩ := hi.place s (by rw [hi.verts]; exact List.mem_append_right _ hs')
    rw [k1] at k3
    cases k3
    exact ⟨y, k1, k2, k4 ▸ k5⟩
  · intro s hs' v hv
    obtain ⟨-, ⟨k1, k2, k3⟩, -⟩ := hi.pieces s hs'
    have hv' : v ∈ st.vertices := by
      simp only [List.mem_cons, List.not_mem_nil, or_false] at hv
      rcases hv with rfl | rfl | rfl <;> assumption
    rw [hi.verts] at hv'
    simp only [triLoop, List.mem_append, List.mem_cons, List.cons_append, List.not_mem_nil, or_false] at hv' ⊢
    tauto
  · rw [hi.ltri, tri3]
  · rw [hi.ledge, edge3, SideOf, SideOf, ← mem_pieceSides, ← mem_pieceSides]
    have hb : ∀ e, e ∈ sidePairs t l0 l1 l2 → e ∈ ps.flatMap triEdges := fun e he => hi.boundary hE he
    constructor
    · rintro ((h | h | h) | h | h)
      · exact .inl h
      · exact .inr (.inl (hb _ h))
      · exact .inr (.inr (hb _ h))
      · exact .inr (.inl h)
      · exact .inr (.inr h)
    · rintro (h | h)
      · exact .inl (.inl h)
      · exact .inr h

end Tet
