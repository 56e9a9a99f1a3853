import Verif.Spec.Delaunay
import Verif.Props.Traverse

/-!
# The search for a tet that is no longer Delaunay
-/

namespace Tet
open Spec
variable {P V T D R K : Type}

theorem drain_sim {σ τ α : Type} {next : σ → Option (Option α × σ)} {next' : τ → Option (Option α × τ)}
    (f : σ → τ) (I : σ → Prop)
    (h : ∀ s a s', I s → next s = some (a, s') → next' (f s) = some (a, f s') ∧ I s') :
    ∀ (l : List α) (n : Nat) (s : σ), I s → Yields next s l → l.length < n →
      ∃ s', I s' ∧ drain next' n (f s) = some (l, f s')
  | _, 0, _, _, _, hn => by omega
  | [], n + 1, s, hI, hy, _ => by
    obtain ⟨s', h1, -⟩ := hy.unnil
    obtain ⟨h2, h3⟩ := h _ _ _ hI h1
    exact ⟨s', h3, by simp [drain, h2]⟩
  | a :: l, n + 1, s, hI, hy, hn => by
    obtain ⟨s', h1, hy'⟩ := hy.uncons
    obtain ⟨h2, h3⟩ := h _ _ _ hI h1
    obtain ⟨s2, h4, h5⟩ := drain_sim f I h l n s' h3 hy' (by simpa using hn)
    exact ⟨s2, h4, by simp [drain, h2, h5]⟩

theorem findHit_sim {σ τ α : Type} {next : σ → Option (Option α × σ)} {next' : τ → Option (Option α × τ)}
    (f : σ → τ) (I : σ → Prop)
    (h : ∀ s a s', I s → next s = some (a, s') → next' (f s) = some (a, f s') ∧ I s')
    {hit : α → Option Bool} {p : α → Bool} :
    ∀ (l : List α) (n : Nat) (s : σ), I s → Yields next s l → (∀ a ∈ l, hit a = some (p a)) → l.length < n →
      ∃ s', I s' ∧ findHit next' hit n (f s) = some (l.find? p, f s')
  | _, 0, _, _, _, _, hn => by omega
  | [], n + 1, s, hI, hy, _, _ => by
    obtain ⟨s', h1, -⟩ := hy.unnil
    obtain ⟨h2, h3⟩ := h _ _ _ hI h1
    exact ⟨s', h3, by simp [findHit, h2]⟩
  | a :: l, n + 1, s, hI, hy, hh, hn => by
    obtain ⟨s', h1, hy'⟩ := hy.uncons
    obtain ⟨h2, h3⟩ := h _ _ _ hI h1
    cases hp : p a with
    | true => exact ⟨s', h3, by simp [findHit, h2, hh a (by simp), hp]⟩
    | false =>
      obtain ⟨s2, h4, h5⟩ := findHit_sim f I h l n s' h3 hy' (fun b hb => hh b (by simp [hb])) (by simpa using hn)
      exact ⟨s2, h4, by simp [findHit, h2, hh a (by simp), hp, h5]⟩

/-! ## The neighbours -/

theorem targetsV_sim {m : Mesh P V T} (hm : ConsistentT m) (fuel : Nat) (s : Mesh.TargetsState) (a : Option VId) s'
    (hI : ∀ k ∈ s.visited, HasFlags m k) (h : m.vertexTargetsNext fuel s = some (a, s')) :
    Mesh.vertexTargetsOptNext fuel (targetsF m s) = some (a, targetsF m s') ∧ ∀ k ∈ s'.visited, HasFlags m k := by
  unfold Mesh.vertexTargetsNext at h
  obtain ⟨⟨r, s1⟩, h1, h⟩ := Option.bind_eq_some_iff.1 h
  obtain ⟨h2, h3⟩ := targets_sim hm fuel s.visited hI s.toSearch r s1 h1
  cases r with
  | none =>
    cases h
    exact ⟨by rw [Mesh.vertexTargetsOptNext, h2]; rfl, h3⟩
  | some w =>
    obtain ⟨v, h4, h⟩ := Option.bind_eq_some_iff.1 h
    cases h
    refine ⟨?_, h3⟩
    rw [Mesh.vertexTargetsOptNext, h2]
    simp only [Option.bind_eq_bind, Option.bind_some]
    have : (targetsF m s').mesh.second w = some v := h4
    rw [this]
    rfl

theorem minByKey_spec {α : Type} {le : D → D → Bool} (ht : ∀ a b, le a b || le b a)
    (htr : ∀ a b c, le a b → le b c → le a c) (l : List (α × D)) :
    (l = [] ∧ minByKey le l = none) ∨ ∃ x ∈ l, minByKey le l = some x.1 ∧ ∀ y ∈ l, le x.2 y.2 := by
  cases l with
  | nil => exact .inl ⟨rfl, rfl⟩
  | cons a l =>
    right
    have : ∀ (l : List (α × D)) (a : α × D), ∃ x ∈ a :: l,
        l.foldl (fun best y => if le best.2 y.2 then best else y) a = x ∧ ∀ y ∈ a :: l, le x.2 y.2 := by
      intro l
      induction l with
      | nil =>
        intro a
        exact ⟨a, by simp, rfl, by simpa using ht a.2 a.2⟩
      | cons b l ih =>
        intro a
        rw [List.foldl_cons]
        by_cases hab : le a.2 b.2
        · rw [if_pos hab]
          obtain ⟨x, h1, h2, h3⟩ := ih a
          refine ⟨x, ?_, h2, ?_⟩
          · rcases List.mem_cons.1 h1 with h | h
            · simp [h]
            · simp [h]
          · intro y hy
            simp only [List.mem_cons] at hy
            rcases hy with rfl | rfl | hy
            · exact h3 _ (by simp)
            · exact htr _ _ _ (h3 a (by simp)) hab
            · exact h3 _ (by simp [hy])
        · rw [if_neg hab]
          obtain ⟨x, h1, h2, h3⟩ := ih b
          refine ⟨x, by simp [List.mem_cons] at h1 ⊢; tauto, h2, ?_⟩
          intro y hy
          simp only [List.mem_cons] at hy
          have hba : le b.2 a.2 := by
            have := ht a.2 b.2
            simp only [Bool.or_eq_true] at this
            exact this.resolve_left hab
          rcases hy with rfl | rfl | hy
          · exact htr _ _ _ (h3 b (by simp)) hba
          · exact h3 _ (by simp)
          · exact h3 _ (by simp [hy])
    obtain ⟨x, h1, h2, h3⟩ := this l a
    exact ⟨x, h1, by rw [minByKey, h2], h3⟩

theorem dist_some {g : DelaunayGeo P D R K} {m : Mesh P V T} (hm : ConsistentT m) {id v : VId} (hid : (m.vertices.get id).isSome)
    (hv : InMesh m v) : ∃ d, m.distance2 g v id = some d := by
  obtain ⟨w, hw⟩ := hv
  obtain ⟨y, hy⟩ := Option.isSome_iff_exists.1 hid
  unfold Mesh.distance2
  rcases hm.toSpec.vertexLive w v hw with h | ⟨x, h1, -⟩
  · rw [if_pos h]; exact ⟨_, rfl⟩
  · split_ifs
    · exact ⟨_, rfl⟩
    · exact ⟨_, rfl⟩
    · exact ⟨_, rfl⟩
    · simp [Mesh.position, h1, hy]

theorem inMesh_second {m : Mesh P V T} {x : Walker} {u v} (h : m.edge x = some (u, v)) : InMesh m v := by
  obtain ⟨c, d, h4⟩ := edge_tet4 h
  exact ⟨x.perm P1203, (tet4_parts (tet4_perm h4 P1203)).1⟩

theorem mapM_all {α β : Type} {f : α → Option β} : ∀ (l : List α), (∀ a ∈ l, ∃ b, f a = some b) →
    ∃ r, l.mapM f = some r ∧ l.map f = r.map some := by
  intro l
  induction l with
  | nil => intro _; exact ⟨[], rfl, rfl⟩
  | cons a l ih =>
    intro h
    obtain ⟨b, hb⟩ := h a (by simp)
    obtain ⟨r, h1, h2⟩ := ih fun a ha => h a (by simp [ha])
    exact ⟨b :: r, by simp [List.mapM_cons, hb, h1], by simp [hb, h2]⟩

/-- One step of the walk to the closest vertex. -/
theorem closer_spec {g : DelaunayGeo P D R K} (hg : Distances g) {m : Mesh P V T} (hm : Consistent m) (hn : NoMarks m)
    {id c : VId} (hid : (m.vertices.get id).isSome) (hc : InMesh m c) (hcg : c ≠ GHOST) :
    ∃ N r w, m.walkerFromVertex c = some w ∧ m.first w = some c ∧ (∀ fuel ≥ N, m.closer g fuel id c = some (m, r)) ∧
      ((r = none ∧ ∀ u, (∃ x : Walker, StarReach m c w.tet x.tet ∧ m.edge x = some (c, u)) → u ≠ id →
          ¬ Closer g m id u c) ∨
        ∃ u, r = some u ∧ u ≠ GHOST ∧ InMesh m u ∧ Closer g m id u c) := by
  obtain ⟨w, s, ws, us, N, h1, h2, h3, -, -, -, h6⟩ := C32_targets hm hc hcg
  obtain ⟨w', h1', h7⟩ := start_of hm hc hcg
  rw [h1] at h1'
  cases h1'
  have husM : ∀ u ∈ us, InMesh m u := by
    intro u hu
    obtain ⟨x, -, hx⟩ := (h6 u).1 hu
    exact inMesh_second hx
  obtain ⟨dc, hdc⟩ := dist_some (g := g) hm.toT hid hc
  let f : VId → Option (VId × D) := fun v => (m.distance2 g v id).map fun d => (v, d)
  have hfall : ∀ v ∈ us.filter (· ≠ id), ∃ b, f v = some b := by
    intro v hv
    obtain ⟨d, hd⟩ := dist_some (g := g) hm.toT hid (husM v (List.mem_of_mem_filter hv))
    exact ⟨(v, d), by simp [f, hd]⟩
  obtain ⟨r, hr1, hr2⟩ := mapM_all _ hfall
  have hmem : ∀ x, x ∈ r ↔ x.1 ∈ us ∧ x.1 ≠ id ∧ m.distance2 g x.1 id = some x.2 := by
    intro x
    have : some x ∈ (us.filter (· ≠ id)).map f ↔ x ∈ r := by rw [hr2]; simp
    rw [← this]
    simp only [List.mem_map, f, Option.map_eq_some_iff, List.mem_filter]
    constructor
    · rintro ⟨a, ⟨h1, h2⟩, d, h3, rfl⟩
      exact ⟨h1, by simpa using h2, h3⟩
    · rintro ⟨h1, h2, h3⟩
      exact ⟨x.1, ⟨h1, by simpa using h2⟩, x.2, h3, rfl⟩
  have hstart : m.vertexTargetWalkers c = some ⟨[], [w]⟩ := by simp [Mesh.vertexTargetWalkers, h1]
  rw [hstart] at h2
  cases h2
  have hrun : ∀ fuel ≥ max N (us.length + 1), ∀ res, (match minByKey g.leD r with
        | none => some (m, none)
        | some v => (do
          let dv ← m.distance2 g v id
          let dc ← m.distance2 g c id
          return (m, if g.ltD dv dc then some v else none) : Option (Mesh P V T × Option VId))) = some (m, res) →
      m.closer g fuel id c = some (m, res) := by
    intro fuel hf res hres
    have hF : targetsF m ⟨[], [w]⟩ = ⟨m, [], [w]⟩ := by simp [targetsF, markVerts_none hn.2.1 hn.2.2]
    obtain ⟨s', k1, k2⟩ := drain_sim (targetsF m) (fun s => ∀ k ∈ s.visited, HasFlags m k)
      (fun s a s' hI h => targetsV_sim hm.toT fuel s a s' hI h) us fuel ⟨[], [w]⟩ (by simp)
      (h3 fuel (by omega)).2 (by omega)
    rw [hF] at k2
    have k3 := targetsF_drop hn.2.1 hn.2.2 s' k1
    unfold Mesh.closer
    refine (bind_step (show m.vertexTargetWalkersOpt c = some ⟨m, [], [w]⟩ by
      simp [Mesh.vertexTargetWalkersOpt, h1]) _).trans ?_
    refine (bind_step k2 _).trans ?_
    refine (bind_step k3 _).trans ?_
    refine (bind_step (show _ = some r from ?_) _).trans hres
    rw [← hr1]
    congr 1
    funext v
    simp only [f]
    cases m.distance2 g v id <;> rfl
  rcases minByKey_spec hg.total hg.leTrans r with ⟨hr0, hmin⟩ | ⟨x, hx, hmin, hle⟩
  · refine ⟨max N (us.length + 1), none, w, h1, h7, fun fuel hf => hrun fuel hf _ (by rw [hmin]), .inl ⟨rfl, ?_⟩⟩
    intro u hu hne
    obtain ⟨d, hd⟩ := dist_some (g := g) hm.toT hid (husM u ((h6 u).2 hu))
    have : (u, d) ∈ r := (hmem _).2 ⟨(h6 u).2 hu, hne, hd⟩
    rw [hr0] at this
    cases this
  · obtain ⟨x1, x2, x3⟩ := (hmem x).1 hx
    cases hlt : g.ltD x.2 dc with
    | true =>
      refine ⟨max N (us.length + 1), some x.1, w, h1, h7, fun fuel hf => hrun fuel hf _ (by
        rw [hmin]; simp [x3, hdc, hlt]), .inr ⟨x.1, rfl, ?_, husM _ x1, _, _, x3, hdc, hlt⟩⟩
      intro e
      rw [Mesh.distance2, if_pos e] at x3
      split_ifs at x3 with hid'
      · have hi := hm.toT.stored.1.lt_max (Option.isSome_iff_exists.1 hid).choose_spec
        rw [hid'] at hi
        exact absurd hi (by simp [GHOST])
      · rw [← Option.some.inj x3, hg.inf] at hlt
        cases hlt
    | false =>
      refine ⟨max N (us.length + 1), none, w, h1, h7, fun fuel hf => hrun fuel hf _ (by
        rw [hmin]; simp [x3, hdc, hlt]), .inl ⟨rfl, ?_⟩⟩
      rintro u hu hne ⟨a, b, ha, hb, hab⟩
      rw [hdc] at hb
      cases hb
      have hur : (u, a) ∈ r := (hmem _).2 ⟨(h6 u).2 hu, hne, ha⟩
      have := hg.le_lt _ _ _ (hle _ hur) hab
      rw [hlt] at this
      cases this

/-- The walk to the closest vertex ends at a vertex without closer neighbours. -/
theorem goClosest_spec {g : DelaunayGeo P D R K} (hg : Distances g) {m : Mesh P V T} (hm : Consistent m) (hn : NoMarks m)
    {id : VId} (hid : (m.vertices.get id).isSome) :
    ∀ c, InMesh m c → c ≠ GHOST → ∃ N c' w, (∀ fuel ≥ N, ∀ n ≥ N, m.goClosest g fuel id n c = some (m, c')) ∧
      InMesh m c' ∧ c' ≠ GHOST ∧ m.walkerFromVertex c' = some w ∧ m.first w = some c' ∧
      ∀ u, (∃ x : Walker, StarReach m c' w.tet x.tet ∧ m.edge x = some (c', u)) → u ≠ id → ¬ Closer g m id u c' := by
  classical
  let S : VId → Finset VId := fun c => m.vertices.keys.toFinset.filter fun v => Closer g m id v c
  have key : ∀ n c, (S c).card ≤ n → InMesh m c → c ≠ GHOST → ∃ N c' w,
      (∀ fuel ≥ N, ∀ n ≥ N, m.goClosest g fuel id n c = some (m, c')) ∧
      InMesh m c' ∧ c' ≠ GHOST ∧ m.walkerFromVertex c' = some w ∧ m.first w = some c' ∧
      ∀ u, (∃ x : Walker, StarReach m c' w.tet x.tet ∧ m.edge x = some (c', u)) → u ≠ id → ¬ Closer g m id u c' := by
    intro n
    induction n with
    | zero =>
      intro c hS hc hcg
      obtain ⟨N, r, w, h1, h2, h3, h4⟩ := closer_spec hg hm hn hid hc hcg
      rcases h4 with ⟨rfl, h4⟩ | ⟨u, rfl, hu, huM, hcl⟩
      · refine ⟨N + 1, c, w, ?_, hc, hcg, h1, h2, h4⟩
        intro fuel hf n hn
        obtain ⟨n, rfl⟩ : ∃ k, n = k + 1 := ⟨n - 1, by omega⟩
        simp [Mesh.goClosest, h3 fuel (by omega)]
      · exfalso
        have : u ∈ S c := by
          simp only [S, Finset.mem_filter, List.mem_toFinset]
          refine ⟨IdMap.mem_keys.2 ?_, hcl⟩
          obtain ⟨x, hx⟩ := huM
          obtain ⟨y, hy, -⟩ := (hm.vertexLive x u hx).resolve_left hu
          rw [hy]; rfl
        rw [Finset.card_eq_zero.1 (Nat.le_zero.1 hS)] at this
        cases this
    | succ n ih =>
      intro c hS hc hcg
      obtain ⟨N, r, w, h1, h2, h3, h4⟩ := closer_spec hg hm hn hid hc hcg
      rcases h4 with ⟨rfl, h4⟩ | ⟨u, rfl, hu, huM, hcl⟩
      · refine ⟨N + 1, c, w, ?_, hc, hcg, h1, h2, h4⟩
        intro fuel hf n hn
        obtain ⟨n, rfl⟩ : ∃ k, n = k + 1 := ⟨n - 1, by omega⟩
        simp [Mesh.goClosest, h3 fuel (by omega)]
      · have hlt : (S u).card < (S c).card := by
          apply Finset.card_lt_card
          refine ⟨?_, ?_⟩
          · intro v hv
            simp only [S, Finset.mem_filter] at hv ⊢
            obtain ⟨hv, a, b, h5, h6, h7⟩ := hv
            obtain ⟨a', b', h8, h9, h10⟩ := hcl
            rw [h6] at h8
            cases h8
            exact ⟨hv, a, b', h5, h9, hg.trans _ _ _ h7 h10⟩
          · intro hss
            have : u ∈ S c := by
              simp only [S, Finset.mem_filter, List.mem_toFinset]
              refine ⟨IdMap.mem_keys.2 ?_, hcl⟩
              obtain ⟨x, hx⟩ := huM
              obtain ⟨y, hy, -⟩ := (hm.vertexLive x u hx).resolve_left hu
              rw [hy]; rfl
            have := hss this
            simp only [S, Finset.mem_filter] at this
            obtain ⟨-, a, b, h5, h6, h7⟩ := this
            rw [h5] at h6
            cases h6
            rw [hg.irrefl] at h7
            cases h7
        obtain ⟨N', c', w', k1, k2⟩ := ih u (by omega) huM hu
        refine ⟨max N N' + 1, c', w', ?_, k2⟩
        intro fuel hf n hn
        obtain ⟨n, rfl⟩ : ∃ k, n = k + 1 := ⟨n - 1, by omega⟩
        simp [Mesh.goClosest, h3 fuel (by omega), k1 fuel (by omega) n (by omega)]
  intro c hc hcg
  exact key _ c le_rfl hc hcg

/-! ## The tets -/

theorem tetHit_spec {g : DelaunayGeo P D R K} {m : Mesh P V T} {id : VId} {k : TId} (hk : (m.tets.get k).isSome) :
    ∃ b, m.tetHit g id k = some b ∧ (b = true ↔ Violated g m id k) := by
  obtain ⟨t, ht⟩ := Option.isSome_iff_exists.1 hk
  refine ⟨_, by simp only [Mesh.tetHit, ht, Option.bind_eq_bind, Option.bind_some]; rfl, ?_⟩
  simp only [decide_eq_true_eq, Violated, Mesh.tet4, Mesh.walkerFromTetId, ht, Option.map_some, Option.some.injEq]
  exact ⟨fun h => ⟨_, rfl, h⟩, fun ⟨q, h1, h2⟩ => by rw [← h1] at h2; exact h2⟩

theorem rareLoop_spec {g : DelaunayGeo P D R K} {m : Mesh P V T} {id : VId} : ∀ (l checked : List TId),
    (∀ k ∈ l, (m.tets.get k).isSome) → (∀ k ∈ checked, ¬ Violated g m id k) →
    (∃ k ∈ l, m.rareLoop g id checked l = some k ∧ Violated g m id k) ∨
      (m.rareLoop g id checked l = none ∧ ∀ k ∈ l, ¬ Violated g m id k) := by
  intro l
  induction l with
  | nil => intro c _ _; exact .inr ⟨rfl, by simp⟩
  | cons k l ih =>
    intro c hl hc
    by_cases hk : k ∈ c
    · rw [Mesh.rareLoop, if_pos hk]
      rcases ih c (fun j hj => hl j (by simp [hj])) hc with ⟨j, h1, h2⟩ | ⟨h1, h2⟩
      · exact .inl ⟨j, by simp [h1], h2⟩
      · refine .inr ⟨h1, fun j hj => ?_⟩
        rcases List.mem_cons.1 hj with rfl | hj
        · exact hc _ hk
        · exact h2 j hj
    · rw [Mesh.rareLoop, if_neg hk]
      obtain ⟨b, hb, hi⟩ := tetHit_spec (g := g) (id := id) (hl k (by simp))
      cases b with
      | true => exact .inl ⟨k, by simp, by simp [hb], hi.1 rfl⟩
      | false =>
        have hk' : ¬ Violated g m id k := fun h => by simpa using hi.2 h
        simp only [hb, Option.bind_eq_bind, Option.bind_some, Bool.false_eq_true, if_false]
        rcases ih (k :: c) (fun j hj => hl j (by simp [hj])) (by
          intro j hj
          rcases List.mem_cons.1 hj with rfl | hj
          · exact hk'
          · exact hc j hj) with ⟨j, h1, h2⟩ | ⟨h1, h2⟩
        · exact .inl ⟨j, by simp [h1], h2⟩
        · refine .inr ⟨h1, fun j hj => ?_⟩
          rcases List.mem_cons.1 hj with rfl | hj
          · exact hk'
          · exact h2 j hj

theorem notDelaunay_spec {g : DelaunayGeo P D R K} (hg : Distances g) {order : List TId → List TId}
    (ho : ∀ l, (order l).Perm l) {m : Mesh P V T} (hm : Consistent m) (hn : NoMarks m)
    {id start : VId} (hid : (m.vertices.get id).isSome) (hs : InMesh m start) (hsg : start ≠ GHOST) :
    ∃ N r, (∀ fuel ≥ N, m.notDelaunay g order fuel id start = r.map fun k => (m, k)) ∧
      ((∃ k, r = some k ∧ (m.tets.get k).isSome ∧ Violated g m id k) ∨ (r = none ∧ GaveUp g m id)) := by
  obtain ⟨w0, h1, h2⟩ := start_of hm hs hsg
  obtain ⟨x, hx, rfl⟩ := Option.map_eq_some_iff.1 h1
  have hlive : ∀ {w : Walker} {v}, m.first w = some v → (m.tets.get w.tet).isSome := fun h => by
    obtain ⟨t, ht, -⟩ := Option.map_eq_some_iff.1 h
    rw [ht]; rfl
  obtain ⟨b, hb, hi⟩ := tetHit_spec (g := g) (id := id) (hlive h2)
  cases b with
  | true =>
    refine ⟨0, some x.tet.tet, fun fuel _ => ?_, .inl ⟨_, rfl, hlive h2, hi.1 rfl⟩⟩
    simp [Mesh.notDelaunay, hx, hb]
  | false =>
    obtain ⟨N, c, w, k1, k2, k3, k4, k5, k6⟩ := goClosest_spec hg hm hn hid start hs hsg
    obtain ⟨w', s, ws, g1, g2, g3, g4, g5, g6⟩ := C30_walkers hm k2 k3
    rw [k4] at g1
    cases g1
    have hs0 : s = ⟨[], [w]⟩ := by
      have := g2
      simp only [Mesh.walkersFromVertex, k4, Option.map_some, Option.some.injEq] at this
      exact this.symm
    subst hs0
    have hF : walkersF m ⟨[], [w]⟩ = ⟨m, [], [w]⟩ := by simp [walkersF, markTets_none hn.1]
    have hopt : m.walkersFromVertexOpt c = some ⟨m, [], [w]⟩ := by simp [Mesh.walkersFromVertexOpt, k4]
    have hsim : ∀ (s : Mesh.WalkersState) a s', (∀ k ∈ s.visited, (m.tets.get k).isSome) →
        m.walkersNext s = some (a, s') → Mesh.walkersOptNext (walkersF m s) = some (a, walkersF m s') ∧
          ∀ k ∈ s'.visited, (m.tets.get k).isSome := fun s a s' hI h => walkers_sim s.visited hI s.toSearch a s' h
    classical
    let p : Walker → Bool := fun x => decide (Violated g m id x.tet)
    have hp : ∀ x ∈ ws, m.tetHit g id x.tet = some (p x) := by
      intro x hx
      obtain ⟨b, hb, hi⟩ := tetHit_spec (g := g) (id := id) (hlive (g4 x hx))
      rw [hb]
      congr 1
      rw [Bool.eq_iff_iff, hi]
      simp [p]
    have hpre : ∀ fuel ≥ max N (ws.length + 1), ∃ s', (∀ k ∈ s'.visited, (m.tets.get k).isSome) ∧
        findHit Mesh.walkersOptNext (fun w => m.tetHit g id w.tet) fuel ⟨m, [], [w]⟩ =
          some (ws.find? p, walkersF m s') := by
      intro fuel hf
      have := findHit_sim (walkersF m) (fun s => ∀ k ∈ s.visited, (m.tets.get k).isSome) hsim ws fuel ⟨[], [w]⟩
        (by simp) g3 hp (by omega)
      rw [hF] at this
      exact this
    cases hfind : ws.find? p with
    | some y =>
      have hy := List.mem_of_find?_eq_some hfind
      have hpy : Violated g m id y.tet := by simpa [p] using List.find?_some hfind
      refine ⟨max N (ws.length + 1), some y.tet, fun fuel hf => ?_, .inl ⟨_, rfl, hlive (g4 y hy), hpy⟩⟩
      obtain ⟨s', q1, q2⟩ := hpre fuel hf
      rw [hfind] at q2
      have q3 := walkersF_drop hn.1 s' q1
      simp [Mesh.notDelaunay, hx, hb, k1 fuel (by omega) fuel (by omega), hopt, q2, q3]
    | none =>
      have hno : ∀ k, StarReach m c w.tet k → ¬ Violated g m id k := by
        intro k hk
        obtain ⟨y, hy, rfl⟩ := List.mem_map.1 ((g6 k).2 hk)
        have := List.find?_eq_none.1 hfind y hy
        simpa [p] using this
      have hadj : ∀ k ∈ ws.map Walker.tet, ∃ l, m.adjacentTets k = some l := by
        intro k hk
        obtain ⟨y, hy, rfl⟩ := List.mem_map.1 hk
        obtain ⟨t, ht⟩ := Option.isSome_iff_exists.1 (hlive (g4 y hy))
        exact ⟨_, by simp only [Mesh.adjacentTets, ht]; rfl⟩
      obtain ⟨L, hL1, hL2⟩ := mapM_all _ hadj
      have hLmem : ∀ j, j ∈ L.flatten ↔ ∃ y z : Walker, StarReach m c w.tet y.tet ∧ m.toAdj y = some z ∧ z.tet = j := by
        intro j
        simp only [List.mem_flatten]
        constructor
        · rintro ⟨l, hl, hj⟩
          have : some l ∈ (ws.map Walker.tet).map m.adjacentTets := by rw [hL2]; simpa using hl
          obtain ⟨k, hk, hkl⟩ := List.mem_map.1 this
          obtain ⟨t, ht, rfl⟩ := Option.map_eq_some_iff.1 hkl
          have : ∃ i : Fin 4, (t.opp i).tet = j := by
            simp only [List.mem_cons, List.not_mem_nil, or_false] at hj
            rcases hj with h | h | h | h
            · exact ⟨0, h.symm⟩
            · exact ⟨1, h.symm⟩
            · exact ⟨2, h.symm⟩
            · exact ⟨3, h.symm⟩
          obtain ⟨i, hi⟩ := this
          obtain ⟨e, he1, he2⟩ : ∃ e : Code, face e = i ∧ div4 e = 0 := by
            have : ∀ i : Fin 4, ∃ e : Code, face e = i ∧ div4 e = 0 := by decide
            exact this i
          refine ⟨⟨k, e⟩, t.opp i, (g6 k).1 hk, ?_, hi⟩
          simp [Mesh.toAdj, ht, Tet.adj, Tet.turn, he1, he2]
        · rintro ⟨y, z, hy, hz, rfl⟩
          obtain ⟨t, ht, rfl⟩ := Option.map_eq_some_iff.1 hz
          have hk := (g6 _).2 hy
          obtain ⟨l, hl⟩ := hadj _ hk
          have : some l ∈ L.map some := by rw [← hL2, ← hl]; exact List.mem_map.2 ⟨_, hk, rfl⟩
          refine ⟨l, by simpa using this, ?_⟩
          simp only [Mesh.adjacentTets, ht, Option.map_some, Option.some.injEq] at hl
          rw [← hl]
          have : (t.adj y.edge).tet = (t.opp (face y.edge)).tet := by
            simp only [Tet.adj, Tet.turn]
            split <;> rfl
          rw [this]
          have h4 : ∀ i : Fin 4, i = 0 ∨ i = 1 ∨ i = 2 ∨ i = 3 := by decide
          rcases h4 (face y.edge) with h | h | h | h <;> rw [h] <;> simp
      have hord : ∀ j, j ∈ order L.flatten.dedup ↔ j ∈ L.flatten := fun j => by
        rw [(ho _).mem_iff, List.mem_dedup]
      have hliveL : ∀ j ∈ order L.flatten.dedup, (m.tets.get j).isSome := by
        intro j hj
        obtain ⟨y, z, -, hz, rfl⟩ := (hLmem j).1 ((hord j).1 hj)
        obtain ⟨t, ht, rfl⟩ := Option.map_eq_some_iff.1 hz
        obtain ⟨w', a, b, c, q1, q2, -⟩ := hm.adjacent y (by simp [Live, ht])
        rw [hz] at q1
        cases q1
        obtain ⟨t', ht', -⟩ := Option.map_eq_some_iff.1 q2
        rw [ht']; rfl
      have hrest : ∀ fuel ≥ max N (ws.length + 1), m.notDelaunay g order fuel id start =
          (m.rareLoop g id (ws.map Walker.tet) (order L.flatten.dedup)).map fun k => (m, k) := by
        intro fuel hf
        obtain ⟨s', q1, q2⟩ := hpre fuel hf
        rw [hfind] at q2
        have q3 := walkersF_drop hn.1 s' q1
        obtain ⟨s2, q4, q5⟩ := drain_sim (walkersF m) (fun s => ∀ k ∈ s.visited, (m.tets.get k).isSome) hsim ws fuel
          ⟨[], [w]⟩ (by simp) g3 (by omega)
        rw [hF] at q5
        have q6 := walkersF_drop hn.1 s2 q4
        simp only [Mesh.notDelaunay, hx, hb, k1 fuel (by omega) fuel (by omega), hopt, q2, q3, Mesh.vertexTetsOpt, q5, q6,
          hL1, Option.bind_eq_bind, Option.bind_some, Bool.false_eq_true, if_false, Option.pure_def]
        cases m.rareLoop g id (ws.map Walker.tet) (order L.flatten.dedup) <;> rfl
      rcases rareLoop_spec (g := g) (id := id) (order L.flatten.dedup) (ws.map Walker.tet) hliveL
        (fun k hk => hno k ((g6 k).1 hk)) with ⟨k, r1, r2, r3⟩ | ⟨r1, r2⟩
      · exact ⟨_, some k, fun fuel hf => by rw [hrest fuel hf, r2], .inl ⟨k, rfl, hliveL k r1, r3⟩⟩
      · refine ⟨_, none, fun fuel hf => by rw [hrest fuel hf, r1], .inr ⟨rfl, c, w, k3, k4, k5, ?_, hno, ?_⟩⟩
        · rintro x u hx ⟨y, rfl, hy⟩ hne
          exact k6 u ⟨y, hx, hy⟩ hne
        · intro y z hy hz
          exact r2 _ ((hord _).2 ((hLmem _).2 ⟨y, z, hy, hz, rfl⟩))

end Tet
