import Verif.Proofs.ProgressFlips

/-!
# Removing edges and triangles: the loops
-/

namespace Tet
open Spec Filter
variable {P V T : Type} {tests : ProgressTests P V T}

/-- The child function for each amount of fuel. -/
abbrev Child (P V T : Type) := Nat → Walker → ProgressState P V T → Option (ProgressState P V T × Option Nat)

/-- The goal with this index is gone, those before are kept. -/
def Reached (m m' : Mesh P V T) (goals : List EdgeOrTri) (i : Nat) : Prop :=
  (∃ g, goals[i]? = some g ∧ ¬ Present m' g) ∧ KeepsGoals m m' (goals.take i)

/-- The call ends as it should. -/
def Ends (tests : ProgressTests P V T) (own : EdgeOrTri) (s : ProgressState P V T)
    (f : Nat → Option (ProgressState P V T × Option Nat)) : Prop :=
  ∃ m' r, (∀ᶠ n in atTop, f n = some (⟨m', s.goals, s.bad⟩, r)) ∧
    Progressed tests s.mesh m' (s.goals ++ [own]) s.bad r

def TriOk (tests : ProgressTests P V T) (child : Child P V T) : Prop :=
  ∀ s w x y p q, Fine tests s.mesh → GoodCall s.mesh s.goals s.bad → s.mesh.tet4 w = some (x, y, p, q) →
    Ends tests (.tri (sorted3 (x, y, p))) s fun n => child n w s

def EdgeOk (tests : ProgressTests P V T) (child : Child P V T) : Prop :=
  ∀ s w x y p q, Fine tests s.mesh → GoodCall s.mesh s.goals s.bad → s.mesh.tet4 w = some (x, y, p, q) →
    Ends tests (.edge (sorted2 (x, y))) s fun n => child n w s

theorem Spec.GoodCall.mono {m m' : Mesh P V T} {goals bad} (h : GoodCall m goals bad) (hk : KeepsGoals m m' goals) :
    GoodCall m' goals bad :=
  ⟨h.1, fun e he => ⟨(h.2 e he).1, hk (.edge e) (h.2 e he).1 (h.2 e he).2⟩⟩

theorem Spec.GoodCall.push {m : Mesh P V T} {goals bad} (h : GoodCall m goals bad) {g : EdgeOrTri} (hg : SortedGoal g) :
    GoodCall m (goals ++ [g]) bad := by
  refine ⟨fun g' hg' => ?_, fun e he => ⟨List.mem_append_left _ (h.2 e he).1, (h.2 e he).2⟩⟩
  rcases List.mem_append.1 hg' with k | k
  · exact h.1 _ k
  · rw [List.mem_singleton.1 k]
    exact hg

theorem Spec.GoodCall.pushBad {m : Mesh P V T} {goals bad} (h : GoodCall m goals bad) {x y : VId}
    (hg : .edge (sorted2 (x, y)) ∈ goals) (he : HasEdge m x y) : GoodCall m goals (bad ++ [sorted2 (x, y)]) := by
  refine ⟨h.1, fun e h' => ?_⟩
  rcases List.mem_append.1 h' with k | k
  · exact h.2 _ k
  · rw [List.mem_singleton.1 k]
    exact ⟨hg, (present_edge x y).2 he⟩

theorem mem_sorted2 (x y : VId) (l : List (VId × VId)) :
    (x, y) ∈ l ++ [sorted2 (x, y)] ∨ (y, x) ∈ l ++ [sorted2 (x, y)] := by
  rcases sorted2_cases x y with ⟨h, -⟩ | ⟨h, -⟩ <;> rw [h] <;> simp

theorem spares_self {m m' : Mesh P V T} {x y z : VId} {l : List (VId × VId)} (h : SparesBad m m' (l ++ [sorted2 (x, y)]))
    (hz : HasTri m' (x, y, z)) : HasTri m (x, y, z) := h _ _ _ (mem_sorted2 x y l) hz

namespace ProgressState

theorem tryTri_ok {child : Child P V T} (hc : TriOk tests child) {m : Mesh P V T} {G B} (hf : Fine tests m)
    (hb : GoodCall m G B) {x y v d : VId} (hG : .edge (sorted2 (x, y)) ∈ G) {w : Walker} (hw : m.tet4 w = some (x, y, v, d)) :
    ∃ m' r, (∀ᶠ n in atTop, tryTri (child n) (x, y) w ⟨m, G, B⟩ = some (⟨m', G, B⟩, r)) ∧
      Progressed tests m m' (G ++ [.tri (sorted3 (x, y, v))]) (B ++ [sorted2 (x, y)]) r := by
  have he : HasEdge m x y := hf.cons.hasEdge_tet.2 ⟨v, d, w, hw⟩
  obtain ⟨m', r, h1, h2⟩ := hc ⟨m, G, B ++ [sorted2 (x, y)]⟩ w x y v d hf (hb.pushBad hG he) hw
  refine ⟨m', r, ?_, h2⟩
  filter_upwards [h1] with n hn
  simp only [tryTri, hn, Option.bind_eq_bind, Option.bind_some, Option.pure_def, List.dropLast_concat]

/-- One triangle of the inner loop. -/
theorem ringTri_ok {child : Child P V T} (hc : TriOk tests child) {m : Mesh P V T} {G B} (hf : Fine tests m)
    (hb : GoodCall m G B) {x y : VId} (v : VId) (hG : .edge (sorted2 (x, y)) ∈ G) :
    ∃ m' r, (∀ᶠ n in atTop, ringTri (child n) n (x, y) v ⟨m, G, B⟩ = some (⟨m', G, B⟩, r)) ∧
      ProgressRun tests m m' ∧ SparesBad m m' (B ++ [sorted2 (x, y)]) ∧
      match r with
      | .gone => KeepsGoals m m' G ∧ ¬ HasTri m' (x, y, v)
      | .kept => KeepsGoals m m' G ∧ HasTri m (x, y, v) ∧ HasTri m' (x, y, v)
      | .other i => Reached m m' G i := by
  by_cases ht : HasTri m (x, y, v)
  · obtain ⟨w, hw⟩ := id ht
    obtain ⟨d, hd⟩ := tri_tet4 hw
    obtain ⟨m', r, h1, h2⟩ := tryTri_ok hc hf hb hG hd
    have hwt := (ringWalker_of hf.cons hf.track hw).2
    cases r with
    | none =>
      have hk := h2.blocked rfl
      refine ⟨m', .kept, ?_, h2.run, h2.bad, hk.sub fun g hg => List.mem_append_left _ hg, ht, ?_⟩
      · filter_upwards [h1] with n hn
        simp [ringTri, hwt, hn]
      · exact (present_tri (hf.run h2.run).cons x y v).1 (hk _ (by simp) ((present_tri hf.cons x y v).2 ht))
    | some i =>
      obtain ⟨⟨g, k1, k2⟩, k3⟩ := h2.removed i rfl
      by_cases hi : i < G.length
      · refine ⟨m', .other i, ?_, h2.run, h2.bad, ⟨g, ?_, k2⟩, ?_⟩
        · filter_upwards [h1] with n hn
          simp [ringTri, hwt, hn, hi]
        · rw [← k1, List.getElem?_append_left hi]
        · rwa [List.take_append_of_le_length (by omega)] at k3
      · have hlt := (List.getElem?_eq_some_iff.1 k1).1
        have : i = G.length := by
          simp at hlt
          omega
        subst this
        rw [List.take_left' rfl] at k3
        refine ⟨m', .gone, ?_, h2.run, h2.bad, k3, ?_⟩
        · filter_upwards [h1] with n hn
          simp [ringTri, hwt, hn]
        · simp at k1
          subst k1
          rwa [present_tri (hf.run h2.run).cons] at k2
  · obtain ⟨r, h1, h2⟩ := C29_tracked hf.cons.toSpec hf.track (x, y, v)
    rcases h2 with ⟨u, rfl, h3⟩ | ⟨rfl, h3⟩
    · exact absurd ⟨u, h3⟩ ht
    · refine ⟨m, .gone, .of_forall fun n => ?_, .refl m, .refl' _ _, .refl' _ _, ht⟩
      simp [ringTri, h1]

/-- The inner loop. -/
theorem ringPass_ok {child : Child P V T} (hc : TriOk tests child) {x y : VId} {goals : List EdgeOrTri} {B} :
    ∀ (opps next : List VId) (m : Mesh P V T), Fine tests m →
    GoodCall m (goals ++ [.edge (sorted2 (x, y))]) B → (next ++ opps).Nodup →
    (∀ z, HasTri m (x, y, z) → z ∈ next ++ opps) → 3 < (next ++ opps).length →
    ∃ (m' : Mesh P V T) (r : RingPass), ProgressRun tests m m' ∧ SparesBad m m' (B ++ [sorted2 (x, y)]) ∧
      match r with
      | .returned i => Reached m m' (goals ++ [.edge (sorted2 (x, y))]) i ∧
        ∀ᶠ n in atTop, ringPass (child n) n (x, y) opps next ⟨m, goals ++ [.edge (sorted2 (x, y))], B⟩ =
          some (⟨m', goals, B⟩, r)
      | .done rest next' reduced => KeepsGoals m m' (goals ++ [.edge (sorted2 (x, y))]) ∧
        (∀ᶠ n in atTop, ringPass (child n) n (x, y) opps next ⟨m, goals ++ [.edge (sorted2 (x, y))], B⟩ =
          some (⟨m', goals ++ [.edge (sorted2 (x, y))], B⟩, r)) ∧
        (next' ++ rest).Nodup ∧ (∀ z, HasTri m' (x, y, z) → z ∈ next' ++ rest) ∧
        (reduced = true → (next' ++ rest).length ≤ 3) ∧
        (reduced = false → rest = [] ∧ 3 < next'.length ∧ next'.length ≤ next.length + opps.length ∧
          (opps ≠ [] → next'.length = next.length + opps.length →
            (∀ z ∈ opps, HasTri m (x, y, z)) ∧ ∃ v, next'.head? = some v ∧ HasTri m' (x, y, v))) := by
  intro opps
  induction opps with
  | nil =>
    intro next m hf hb hn hcov hlen
    refine ⟨m, .done [] next false, .refl m, .refl' _ _, .refl' _ _, .of_forall fun n => rfl, hn, hcov, by simp, fun _ => ?_⟩
    simp only [List.append_nil] at hlen
    exact ⟨rfl, hlen, by simp, fun h => absurd rfl h⟩
  | cons v2 opps ih =>
    intro next m hf hb hn hcov hlen
    set G := goals ++ [EdgeOrTri.edge (sorted2 (x, y))] with hG
    have hm : .edge (sorted2 (x, y)) ∈ G := by simp [hG]
    obtain ⟨m1, r, h1, h2, h3, h4⟩ := ringTri_ok hc hf hb v2 hm
    cases r with
    | other i =>
      refine ⟨m1, .returned i, h2, h3, h4, ?_⟩
      filter_upwards [h1] with n hn
      simp only [ringPass, hn, Option.bind_eq_bind, Option.bind_some, popGoal, Option.pure_def]
      rw [hG, List.dropLast_concat]
    | gone =>
      obtain ⟨hk, hno⟩ := h4
      have hcov1 : ∀ z, HasTri m1 (x, y, z) → z ∈ next ++ opps := by
        intro z hz
        have := hcov z (spares_self h3 hz)
        simp only [List.mem_append, List.mem_cons] at this ⊢
        rcases this with k | rfl | k
        · exact .inl k
        · exact absurd hz hno
        · exact .inr k
      have hn1 : (next ++ opps).Nodup := by
        refine hn.sublist ?_
        exact List.Sublist.append_left (List.sublist_cons_self _ _) _
      by_cases hle : opps.length + next.length ≤ 3
      · refine ⟨m1, .done opps next true, h2, h3, hk, ?_, hn1, hcov1, fun _ => by simp; omega, by simp⟩
        filter_upwards [h1] with n hn
        simp [ringPass, hn, hle]
      · obtain ⟨m2, r, k1, k2, k3⟩ := ih next m1 (hf.run h2) (hb.mono hk) hn1 hcov1 (by simp; omega)
        refine ⟨m2, r, h2.trans' k1, h3.trans' k2, ?_⟩
        cases r with
        | returned i =>
          obtain ⟨⟨k3, k4⟩, k5⟩ := k3
          refine ⟨⟨k3, (hk.sub fun g hg => List.mem_of_mem_take hg).trans' k4⟩, ?_⟩
          filter_upwards [h1, k5] with n hn hn'
          simp only [ringPass, hn, Option.bind_eq_bind, Option.bind_some, if_neg hle, reduceCtorEq, if_false]
          exact hn'
        | done rest next' reduced =>
          obtain ⟨k3, k5, k6, k7, k8, k9⟩ := k3
          refine ⟨hk.trans' k3, ?_, k6, k7, k8, ?_⟩
          · filter_upwards [h1, k5] with n hn hn'
            simp only [ringPass, hn, Option.bind_eq_bind, Option.bind_some, if_neg hle, reduceCtorEq, if_false]
            exact hn'
          · intro hr
            obtain ⟨a1, a2, a3, a4⟩ := k9 hr
            refine ⟨a1, a2, by simp; omega, fun _ h => ?_⟩
            simp at h
            omega
    | kept =>
      obtain ⟨hk, hyes, hyes'⟩ := h4
      have hperm : (v2 :: next ++ opps).Perm (next ++ v2 :: opps) := List.perm_middle.symm
      have hcov1 : ∀ z, HasTri m1 (x, y, z) → z ∈ (v2 :: next) ++ opps := by
        intro z hz
        exact hperm.mem_iff.2 (hcov z (spares_self h3 hz))
      have hn1 : (v2 :: next ++ opps).Nodup := hperm.nodup_iff.2 hn
      have hlen1 : 3 < (v2 :: next ++ opps).length := by rw [hperm.length_eq]; exact hlen
      have hle : ¬ opps.length + (v2 :: next).length ≤ 3 := by
        simp at hlen1 ⊢
        omega
      rcases eq_or_ne opps [] with rfl | ho
      · refine ⟨m1, .done [] (v2 :: next) false, h2, h3, hk, ?_, hn1, hcov1, by simp, fun _ => ⟨rfl, by simpa using hlen1, by simp, ?_⟩⟩
        · filter_upwards [h1] with n hn
          simp only [ringPass, hn, Option.bind_eq_bind, Option.bind_some, if_neg hle, if_true]
        · intro _ _
          refine ⟨fun z hz => ?_, v2, rfl, hyes'⟩
          rw [List.mem_singleton.1 hz]
          exact hyes
      obtain ⟨m2, r, k1, k2, k3⟩ := ih (v2 :: next) m1 (hf.run h2) (hb.mono hk) hn1 hcov1 hlen1
      refine ⟨m2, r, h2.trans' k1, h3.trans' k2, ?_⟩
      cases r with
      | returned i =>
        obtain ⟨⟨k3, k4⟩, k5⟩ := k3
        refine ⟨⟨k3, (hk.sub fun g hg => List.mem_of_mem_take hg).trans' k4⟩, ?_⟩
        filter_upwards [h1, k5] with n hn hn'
        simp only [ringPass, hn, Option.bind_eq_bind, Option.bind_some, if_neg hle, if_true]
        exact hn'
      | done rest next' reduced =>
        obtain ⟨k3, k5, k6, k7, k8, k9⟩ := k3
        refine ⟨hk.trans' k3, ?_, k6, k7, k8, ?_⟩
        · filter_upwards [h1, k5] with n hn hn'
          simp only [ringPass, hn, Option.bind_eq_bind, Option.bind_some, if_neg hle, if_true]
          exact hn'
        · intro hr
          obtain ⟨a1, a2, a3, a4⟩ := k9 hr
          refine ⟨a1, a2, by simp at a3 ⊢; omega, fun _ h => ?_⟩
          obtain ⟨b1, b2⟩ := a4 ho (by simp at h ⊢; omega)
          refine ⟨fun z hz => ?_, b2⟩
          rcases List.mem_cons.1 hz with rfl | hz
          · exact hyes
          · exact spares_self h3 (b1 z hz)

theorem notBad_iff {s : ProgressState P V T} {e : VId × VId} : s.notBad e = true ↔ sorted2 e ∉ s.bad := by
  simp [notBad]

theorem not_locked_of {m : Mesh P V T} (hm : ConsistentT m) {w : Walker} {t : V3} (h : m.tri w = some t)
    (hl : m.triLocked w = some false) : ¬ LockedTri m t := by
  obtain ⟨l, h1, h2⟩ := triLocked_of hm h
  rw [hl] at h1
  cases h1
  simpa using h2

theorem progressed_refl (m : Mesh P V T) (G : List EdgeOrTri) (B : List (VId × VId)) : Progressed tests m m G B none :=
  ⟨.refl m, .refl' _ _, fun _ => .refl' _ _, by simp⟩

/-- One 4-to-4 flip. -/
theorem try44_ok {m : Mesh P V T} (hf : Fine tests m) {goals B} {x y p q r s t : VId} {w a1 a2 a3 : Walker}
    (hb : GoodCall m (goals ++ [.edge (sorted2 (x, y))]) B)
    (hw : m.tet4 w = some (x, y, p, q)) (s1 : m.ringStep w = some a1) (s2 : m.ringStep a1 = some a2)
    (s3 : m.ringStep a2 = some a3) (s4 : m.ringStep a3 = some w) (hne : a2 ≠ w)
    (k1 : m.tet4 a1 = some (x, y, q, r)) (k2 : m.tet4 a2 = some (x, y, r, s)) (k3 : m.tet4 a3 = some (x, y, s, t))
    (hle : ¬ LockedEdge m x y) :
    ∃ m' i, try44 tests w a1 a2 a3 ⟨m, goals ++ [.edge (sorted2 (x, y))], B⟩ =
        some (⟨m', goals ++ [.edge (sorted2 (x, y))], B⟩, i) ∧
      Progressed tests m m' (goals ++ [.edge (sorted2 (x, y))]) B i ∧ (i = none → m' = m) := by
  obtain ⟨l0, e0, -⟩ := triLocked_of hf.cons (tet4_parts hw).2.2.2
  obtain ⟨l1, e1, -⟩ := triLocked_of hf.cons (tet4_parts k1).2.2.2
  obtain ⟨l2, e2, -⟩ := triLocked_of hf.cons (tet4_parts k2).2.2.2
  obtain ⟨l3, e3, -⟩ := triLocked_of hf.cons (tet4_parts k3).2.2.2
  simp only [try44, (tet4_parts hw).1, tet4_third k2, tet4_second hw, tet4_third hw, (tet4_parts k2).2.1, (tet4_parts hw).2.1,
    e0, e1, e2, e3, Option.bind_eq_bind, Option.bind_some, Option.pure_def]
  split_ifs with hc
  · simp only [Bool.and_eq_true, notBad_iff, Bool.not_eq_true'] at hc
    obtain ⟨⟨⟨⟨⟨⟨⟨⟨⟨⟨⟨⟨⟨⟨⟨⟨⟨⟨⟨⟨n1, n2⟩, n3⟩, n4⟩, n5⟩, n6⟩, n7⟩, n8⟩, ea⟩, t1⟩, t2⟩, t3⟩, t4⟩, rfl⟩, rfl⟩, rfl⟩, rfl⟩, p0⟩, p1⟩, p2⟩, p3⟩ := hc
    obtain ⟨m', ws, g1, g2, g3, g4, g5, g6⟩ := edge_flip44 hf hw s1 s2 s3 s4 hne k1 k2 hle (by
      intro u hu
      simp only [List.mem_cons, List.not_mem_nil, or_false] at hu
      rcases hu with rfl | rfl | rfl | rfl
      · exact not_locked_of hf.cons (tet4_parts hw).2.2.2 e0
      · exact not_locked_of hf.cons (tet4_parts k1).2.2.2 e1
      · exact not_locked_of hf.cons (tet4_parts k2).2.2.2 e2
      · exact not_locked_of hf.cons (tet4_parts k3).2.2.2 e3) p0 p1 p2 p3 ea (by
      intro u hu
      simp only [List.mem_cons, List.not_mem_nil, or_false] at hu
      rcases hu with rfl | rfl | rfl | rfl <;> assumption) hb (by
      intro u hu
      simp only [List.mem_cons, List.not_mem_nil, or_false] at hu
      rcases hu with rfl | rfl | rfl | rfl
      · exact ⟨by rwa [sorted2_swap], n5⟩
      · exact ⟨n7, by rwa [sorted2_swap]⟩
      · exact ⟨by rwa [sorted2_swap], n4⟩
      · exact ⟨n2, by rwa [sorted2_swap]⟩)
    have hfine := hf.run (.one g2)
    obtain ⟨i, i1, i2, i3⟩ := findIdx_removed (m := m) (m' := m') (G := goals ++ [.edge (sorted2 (x, y))])
      (fun g => decide (g ∈ [EdgeOrTri.edge (sorted2 (x, y)), .tri (sorted3 (x, y, p)), .tri (sorted3 (x, y, q)),
        .tri (sorted3 (x, y, r)), .tri (sorted3 (x, y, s))])) ⟨.edge (sorted2 (x, y)), by simp, by simp⟩ (by
        intro g _ hg
        simp only [decide_eq_true_eq, List.mem_cons, List.not_mem_nil, or_false] at hg
        rcases hg with rfl | rfl | rfl | rfl | rfl
        · rwa [present_edge]
        all_goals
          rw [present_tri hfine.cons]
          exact g5 _) (by
        intro g hgm hg hp
        simp only [decide_eq_false_iff_not, List.mem_cons, List.not_mem_nil, or_false, not_or] at hg
        refine g6 g (hb.1 g hgm) hg.1 ?_ hp
        intro u hu
        simp only [List.mem_cons, List.not_mem_nil, or_false] at hu
        rcases hu with rfl | rfl | rfl | rfl
        exacts [hg.2.1, hg.2.2.1, hg.2.2.2.1, hg.2.2.2.2])
    refine ⟨m', some i, ?_, ⟨.one g2, g3, by simp, ?_⟩, by simp⟩
    · simp only [g1, List.getLast?_concat, Option.bind_some, i1]
    · rintro j hj
      cases hj
      exact ⟨i2, i3⟩
  · exact ⟨m, none, rfl, progressed_refl _ _ _, fun _ => rfl⟩

/-- The last attempt. -/
theorem lastTry_ok {m : Mesh P V T} (hf : Fine tests m) {goals B} {x y p q : VId} {w : Walker} {l : List Walker}
    (hb : GoodCall m (goals ++ [.edge (sorted2 (x, y))]) B)
    (hw : m.tet4 w = some (x, y, p, q)) (hr : RunsThrough m.ringStep w l) (hn : (w :: l).Nodup) (hle : ¬ LockedEdge m x y) :
    ∃ m' i, lastTry tests ⟨m, goals ++ [.edge (sorted2 (x, y))], B⟩ (w :: l) =
        some (⟨m', goals ++ [.edge (sorted2 (x, y))], B⟩, i) ∧
      Progressed tests m m' (goals ++ [.edge (sorted2 (x, y))]) B i := by
  match l, hr, hn with
  | [a1, a2, a3], hr, hn =>
    simp only [RunsThrough, List.cons_append, List.nil_append, List.isChain_cons_cons, List.isChain_singleton, and_true] at hr
    obtain ⟨s1, s2, s3, s4⟩ := hr
    simp only [List.nodup_cons, List.mem_cons, List.not_mem_nil, or_false, not_or, List.nodup_nil, and_true] at hn
    obtain ⟨r, k1⟩ := hf.cons.ring_tet4 hw s1
    obtain ⟨s, k2⟩ := hf.cons.ring_tet4 k1 s2
    obtain ⟨t, k3⟩ := hf.cons.ring_tet4 k2 s3
    obtain ⟨m', i, h1, h2, h3⟩ := try44_ok hf hb hw s1 s2 s3 s4 (fun h => hn.1.2.1 h.symm) k1 k2 k3 hle
    cases i with
    | some i =>
      refine ⟨m', some i, ?_, h2⟩
      simp only [lastTry, h1, Option.bind_eq_bind, Option.bind_some, Option.pure_def]
    | none =>
      cases h3 rfl
      have k4 := hw
      obtain ⟨u, k5⟩ := hf.cons.ring_tet4 k3 s4
      rw [hw] at k5
      cases k5
      obtain ⟨m', i, h4, h5, -⟩ := try44_ok hf hb k1 s2 s3 s4 s1 (fun h => hn.2.1.2 h.symm) k2 k3 hw hle
      refine ⟨m', i, ?_, h5⟩
      simp only [lastTry, h1, Option.bind_eq_bind, Option.bind_some, h4]
  | [], _, _ => exact ⟨m, none, rfl, progressed_refl _ _ _⟩
  | [_], _, _ => exact ⟨m, none, rfl, progressed_refl _ _ _⟩
  | [_, _], _, _ => exact ⟨m, none, rfl, progressed_refl _ _ _⟩
  | _ :: _ :: _ :: _ :: _, _, _ => exact ⟨m, none, rfl, progressed_refl _ _ _⟩

theorem mem_of_mapM {α β : Type} {f : α → Option β} : ∀ (l : List α) (r : List β), l.mapM f = some r →
    ∀ a ∈ l, ∃ b ∈ r, f a = some b
  | [], _, _, _, ha => by simp at ha
  | a :: l, r, h, c, hc => by
    simp only [List.mapM_cons, Option.bind_eq_bind, Option.bind_eq_some_iff, Option.pure_def, Option.some.injEq] at h
    obtain ⟨b, h1, r', h2, rfl⟩ := h
    rcases List.mem_cons.1 hc with rfl | hc
    · exact ⟨b, by simp, h1⟩
    · obtain ⟨b', k1, k2⟩ := mem_of_mapM l r' h2 c hc
      exact ⟨b', by simp [k1], k2⟩

theorem nodup_of_mapM {α β : Type} {f : α → Option β} : ∀ (l : List α) (r : List β), l.mapM f = some r → r.Nodup → l.Nodup
  | [], _, _, _ => by simp
  | a :: l, r, h, hn => by
    simp only [List.mapM_cons, Option.bind_eq_bind, Option.bind_eq_some_iff, Option.pure_def, Option.some.injEq] at h
    obtain ⟨b, h1, r', h2, rfl⟩ := h
    rw [List.nodup_cons] at hn ⊢
    refine ⟨fun ha => hn.1 ?_, nodup_of_mapM l r' h2 hn.2⟩
    obtain ⟨b', k1, k2⟩ := mem_of_mapM l r' h2 a ha
    rw [h1] at k2
    cases k2
    exact k1

open Classical in
/-- The loop `'reduce`. -/
theorem reduceLoop_ok {child : Child P V T} (hc : TriOk tests child) {x y : VId} {goals : List EdgeOrTri} {B} :
    ∀ (N : Nat) (L : List VId) (m : Mesh P V T), Fine tests m → HasEdge m x y → ¬ LockedEdge m x y →
    GoodCall m (goals ++ [.edge (sorted2 (x, y))]) B → L.Nodup → (∀ z, HasTri m (x, y, z) → z ∈ L) →
    2 * L.length + (if ∀ z ∈ L, HasTri m (x, y, z) then 1 else 0) < N →
    ∃ (K : Nat) (m' : Mesh P V T) (r : Option Nat ⊕ List VId),
      match r with
      | .inl i => Progressed tests m m' (goals ++ [.edge (sorted2 (x, y))]) B i ∧
        ∀ᶠ n in atTop, ∀ k ≥ K, reduceLoop tests (child n) n (x, y) k L ⟨m, goals ++ [.edge (sorted2 (x, y))], B⟩ =
          some (⟨m', goals, B⟩, r)
      | .inr L' => ProgressRun tests m m' ∧ SparesBad m m' B ∧ KeepsGoals m m' (goals ++ [.edge (sorted2 (x, y))]) ∧
        L'.Nodup ∧ L'.length ≤ 3 ∧ (∀ z, HasTri m' (x, y, z) → z ∈ L') ∧
        ∀ᶠ n in atTop, ∀ k ≥ K, reduceLoop tests (child n) n (x, y) k L ⟨m, goals ++ [.edge (sorted2 (x, y))], B⟩ =
          some (⟨m', goals ++ [.edge (sorted2 (x, y))], B⟩, r) := by
  intro N
  induction N with
  | zero => intro L m _ _ _ _ _ _ h; omega
  | succ N ih =>
    intro L m hf he hle hb hn hcov hN
    by_cases h3 : L.length ≤ 3
    · refine ⟨1, m, .inr L, .refl m, .refl' _ _, .refl' _ _, hn, h3, hcov, .of_forall fun n k hk => ?_⟩
      obtain ⟨k, rfl⟩ : ∃ j, k = j + 1 := ⟨k - 1, by omega⟩
      rw [reduceLoop, if_pos h3]
    obtain ⟨m1, r, g1, g2, g3⟩ := ringPass_ok hc L [] m hf hb (by simpa) (by simpa) (by simp; omega)
    have gB : SparesBad m m1 B := g2.sub fun g hg => List.mem_append_left _ hg
    cases r with
    | returned i =>
      obtain ⟨g3, g4⟩ := g3
      refine ⟨1, m1, .inl (some i), ⟨g1, gB, by simp, ?_⟩, ?_⟩
      · rintro j hj
        cases hj
        exact g3
      · filter_upwards [g4] with n hn k hk
        obtain ⟨k, rfl⟩ : ∃ j, k = j + 1 := ⟨k - 1, by omega⟩
        rw [reduceLoop, if_neg h3]
        simp only [hn, Option.bind_eq_bind, Option.bind_some, Option.pure_def]
    | done rest next reduced =>
      obtain ⟨g3, g4, g5, g6, g7, g8⟩ := g3
      have hf1 := hf.run g1
      have he1 : HasEdge m1 x y := (present_edge x y).1 (g3 _ (by simp) ((present_edge x y).2 he))
      have hle1 : ¬ LockedEdge m1 x y := fun h => hle (((hf.locks g1).2 x y).1 h)
      -- going on with fewer triangles
      have cont : (∀ᶠ n in atTop, ∀ k, reduceLoop tests (child n) n (x, y) (k + 1) L ⟨m, goals ++ [.edge (sorted2 (x, y))], B⟩ =
            reduceLoop tests (child n) n (x, y) k (next ++ rest) ⟨m1, goals ++ [.edge (sorted2 (x, y))], B⟩) →
          2 * (next ++ rest).length + (if ∀ z ∈ next ++ rest, HasTri m1 (x, y, z) then 1 else 0) < N →
          ∃ (K : Nat) (m' : Mesh P V T) (r : Option Nat ⊕ List VId),
          match r with
          | .inl i => Progressed tests m m' (goals ++ [.edge (sorted2 (x, y))]) B i ∧
            ∀ᶠ n in atTop, ∀ k ≥ K, reduceLoop tests (child n) n (x, y) k L ⟨m, goals ++ [.edge (sorted2 (x, y))], B⟩ =
              some (⟨m', goals, B⟩, r)
          | .inr L' => ProgressRun tests m m' ∧ SparesBad m m' B ∧ KeepsGoals m m' (goals ++ [.edge (sorted2 (x, y))]) ∧
            L'.Nodup ∧ L'.length ≤ 3 ∧ (∀ z, HasTri m' (x, y, z) → z ∈ L') ∧
            ∀ᶠ n in atTop, ∀ k ≥ K, reduceLoop tests (child n) n (x, y) k L ⟨m, goals ++ [.edge (sorted2 (x, y))], B⟩ =
              some (⟨m', goals ++ [.edge (sorted2 (x, y))], B⟩, r) := by
        intro hstep hlt
        obtain ⟨K, m2, r, hr⟩ := ih (next ++ rest) m1 hf1 he1 hle1 (hb.mono g3) g5 g6 hlt
        refine ⟨K + 1, m2, r, ?_⟩
        cases r with
        | inl i =>
          obtain ⟨c1, c2⟩ := hr
          refine ⟨⟨g1.trans' c1.run, gB.trans' c1.bad, fun h => g3.trans' (c1.blocked h), fun j hj => ?_⟩, ?_⟩
          · obtain ⟨d1, d2⟩ := c1.removed j hj
            exact ⟨d1, (g3.sub fun g hg => List.mem_of_mem_take hg).trans' d2⟩
          · filter_upwards [c2, hstep] with n hn hs k hk
            obtain ⟨k, rfl⟩ : ∃ j, k = j + 1 := ⟨k - 1, by omega⟩
            rw [hs, hn k (by omega)]
        | inr L' =>
          obtain ⟨c1, c2, c3, c4, c5, c6, c7⟩ := hr
          refine ⟨g1.trans' c1, gB.trans' c2, g3.trans' c3, c4, c5, c6, ?_⟩
          filter_upwards [c7, hstep] with n hn hs k hk
          obtain ⟨k, rfl⟩ : ∃ j, k = j + 1 := ⟨k - 1, by omega⟩
          rw [hs, hn k (by omega)]
      by_cases hq : reduced = false ∧ L.length = next.length
      · obtain ⟨rfl, hlen⟩ := hq
        obtain ⟨rfl, b1, -, b2⟩ := g8 rfl
        obtain ⟨b3, v, b4, b5⟩ := b2 (by rintro rfl; simp at h3) (by simpa using hlen.symm)
        obtain ⟨w, hw⟩ := b5
        obtain ⟨d, hd⟩ := tri_tet4 hw
        have hwt := (ringWalker_of hf1.cons hf1.track hw).2
        obtain ⟨l, thirds, r1, r2, r3, r4, r5, r6⟩ := ring_of hf1.cons hd
        have hnd : (w :: l).Nodup := nodup_of_mapM _ _ r3 r4
        by_cases hl : (w :: l).length = 3
        · refine cont ?_ ?_
          · filter_upwards [g4, r1] with n hn hr k
            rw [reduceLoop, if_neg h3]
            simp only [hn, Option.bind_eq_bind, Option.bind_some, hlen, and_self, if_true, b4, hwt, hr, if_pos hl]
          · have hnot : ¬ ∀ z ∈ next ++ [], HasTri m1 (x, y, z) := by
              intro hall
              have hsub : next ⊆ thirds := fun z hz => (r6 z).2 (hall z (by simpa using hz))
              have := (List.subperm_of_subset (by simpa using g5) hsub).length_le
              simp at hl
              omega
            rw [if_neg hnot]
            rw [if_pos b3] at hN
            simp
            omega
        · obtain ⟨m2, i, c1, c2⟩ := lastTry_ok hf1 (hb.mono g3) hd r2 hnd hle1
          refine ⟨1, m2, .inl i, ⟨g1.trans' c2.run, gB.trans' c2.bad, fun h => g3.trans' (c2.blocked h), fun j hj => ?_⟩, ?_⟩
          · obtain ⟨d1, d2⟩ := c2.removed j hj
            exact ⟨d1, (g3.sub fun g hg => List.mem_of_mem_take hg).trans' d2⟩
          · filter_upwards [g4, r1] with n hn hr k hk
            obtain ⟨k, rfl⟩ : ∃ j, k = j + 1 := ⟨k - 1, by omega⟩
            rw [reduceLoop, if_neg h3]
            simp only [hn, Option.bind_eq_bind, Option.bind_some, hlen, and_self, if_true, b4, hwt, hr, if_neg hl, c1,
              Option.pure_def, popGoal, List.dropLast_concat]
      · refine cont ?_ ?_
        · filter_upwards [g4] with n hn k
          rw [reduceLoop, if_neg h3]
          simp only [hn, Option.bind_eq_bind, Option.bind_some, if_neg hq]
        · have hlt : (next ++ rest).length < L.length := by
            cases reduced with
            | true => have := g7 rfl; omega
            | false =>
              obtain ⟨rfl, -, b1, -⟩ := g8 rfl
              simp at b1 hq ⊢
              omega
          split_ifs at hN ⊢ <;> omega

end ProgressState
end Tet
