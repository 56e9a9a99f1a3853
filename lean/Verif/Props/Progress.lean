import Verif.Proofs.FlipStates
import Verif.Props.Geo
import Verif.Props.FlipQuality

/-!
# C45, C46: removing an edge or a triangle by flips
-/

namespace Tet
open Spec Filter
variable {P V T : Type} {tests : ProgressTests P V T}

/-! ## C45 -/

section balance
open ProgressState

/-- The child function gives back the two stacks. -/
def Balanced (child : Walker → ProgressState P V T → Option (ProgressState P V T × Option Nat)) : Prop :=
  ∀ w s s' r, child w s = some (s', r) → s'.goals = s.goals ∧ s'.bad = s.bad

variable {child : Walker → ProgressState P V T → Option (ProgressState P V T × Option Nat)} {s s' : ProgressState P V T}

theorem tryTri_balanced (hc : Balanced child) {edge w r} (h : s.tryTri child edge w = some (s', r)) :
    s'.goals = s.goals ∧ s'.bad = s.bad := by
  unfold tryTri at h
  obtain ⟨⟨s1, r1⟩, h1, h⟩ := Option.bind_eq_some_iff.1 h
  cases h
  obtain ⟨k1, k2⟩ := hc _ _ _ _ h1
  exact ⟨k1, by simp only [k2, List.dropLast_concat]⟩

theorem ringTri_balanced (hc : Balanced child) {fuel edge v r} (h : s.ringTri child fuel edge v = some (s', r)) :
    s'.goals = s.goals ∧ s'.bad = s.bad := by
  unfold ringTri at h
  obtain ⟨w, h1, h⟩ := Option.bind_eq_some_iff.1 h
  cases w with
  | none =>
    cases h
    exact ⟨rfl, rfl⟩
  | some w =>
    obtain ⟨⟨s1, i⟩, h2, h⟩ := Option.bind_eq_some_iff.1 h
    have := tryTri_balanced hc h2
    cases i <;> cases h <;> exact this

/-- The goals after the inner loop. -/
def afterPass (goals : List EdgeOrTri) : RingPass → List EdgeOrTri
  | .returned _ => goals.dropLast
  | .done _ _ _ => goals

/-- The goals after the loop. -/
def afterLoop (goals : List EdgeOrTri) : Option Nat ⊕ List VId → List EdgeOrTri
  | .inl _ => goals.dropLast
  | .inr _ => goals

theorem ringPass_balanced (hc : Balanced child) {fuel edge} : ∀ {opps next : List VId} {s s' : ProgressState P V T} {r},
    s.ringPass child fuel edge opps next = some (s', r) →
    s'.bad = s.bad ∧ s'.goals = afterPass s.goals r := by
  intro opps
  induction opps with
  | nil =>
    intro next s s' r h
    cases h
    exact ⟨rfl, rfl⟩
  | cons v opps ih =>
    intro next s s' r h
    rw [ringPass] at h
    obtain ⟨⟨s1, p⟩, h1, h⟩ := Option.bind_eq_some_iff.1 h
    obtain ⟨k1, k2⟩ := ringTri_balanced hc h1
    have key : ∀ next', (if opps.length + next'.length ≤ 3 then some (s1, RingPass.done opps next' true)
        else s1.ringPass child fuel edge opps next') = some (s', r) →
        s'.bad = s.bad ∧ s'.goals = afterPass s.goals r := by
      intro next' h
      split_ifs at h
      · cases h
        exact ⟨k2, k1⟩
      · obtain ⟨j1, j2⟩ := ih h
        exact ⟨j1.trans k2, by rw [j2, k1]⟩
    cases p with
    | other i =>
      cases h
      exact ⟨k2, by simp only [popGoal, k1, afterPass]⟩
    | gone => exact key _ h
    | kept => exact key _ h

theorem try44_balanced {w0 w1 w2 w3 r} (h : s.try44 tests w0 w1 w2 w3 = some (s', r)) :
    s'.goals = s.goals ∧ s'.bad = s.bad := by
  unfold try44 at h
  simp only [Option.bind_eq_bind, Option.bind_eq_some_iff] at h
  obtain ⟨_, -, _, -, _, -, _, -, _, -, _, -, _, -, _, -, _, -, _, -, h⟩ := h
  split_ifs at h
  · simp only [Option.bind_eq_some_iff] at h
    obtain ⟨⟨m', ws⟩, -, h⟩ := h
    simp only [Option.bind_eq_some_iff] at h
    obtain ⟨_, -, _, -, h⟩ := h
    cases h
    exact ⟨rfl, rfl⟩
  · cases h
    exact ⟨rfl, rfl⟩

theorem lastTry_balanced : ∀ {ring r}, s.lastTry tests ring = some (s', r) → s'.goals = s.goals ∧ s'.bad = s.bad
  | [r0, r1, r2, r3], r, h => by
    unfold lastTry at h
    obtain ⟨⟨s1, i⟩, h1, h⟩ := Option.bind_eq_some_iff.1 h
    have := try44_balanced h1
    cases i with
    | none => exact ⟨(try44_balanced h).1.trans this.1, (try44_balanced h).2.trans this.2⟩
    | some i =>
      cases h
      exact this
  | [], _, h => by cases h; exact ⟨rfl, rfl⟩
  | [_], _, h => by cases h; exact ⟨rfl, rfl⟩
  | [_, _], _, h => by cases h; exact ⟨rfl, rfl⟩
  | [_, _, _], _, h => by cases h; exact ⟨rfl, rfl⟩
  | _ :: _ :: _ :: _ :: _ :: _, _, h => by cases h; exact ⟨rfl, rfl⟩

theorem reduceLoop_balanced (hc : Balanced child) {n edge} : ∀ {fuel : Nat} {opps : List VId} {s s' : ProgressState P V T} {r},
    reduceLoop tests child n edge fuel opps s = some (s', r) →
    s'.bad = s.bad ∧ s'.goals = afterLoop s.goals r := by
  intro fuel
  induction fuel with
  | zero => intro _ _ _ _ h; cases h
  | succ fuel ih =>
    intro opps s s' r h
    rw [reduceLoop] at h
    split_ifs at h
    · cases h
      exact ⟨rfl, rfl⟩
    obtain ⟨⟨s1, p⟩, h1, h⟩ := Option.bind_eq_some_iff.1 h
    obtain ⟨k1, k2⟩ := ringPass_balanced hc h1
    cases p with
    | returned i =>
      cases h
      exact ⟨k1, k2⟩
    | done rest next reduced =>
      simp only [afterPass] at h k2
      split_ifs at h
      · simp only [Option.bind_eq_bind, Option.bind_eq_some_iff] at h
        obtain ⟨v, -, w, -, w', -, ring, -, h⟩ := h
        split_ifs at h
        · obtain ⟨j1, j2⟩ := ih h
          exact ⟨j1.trans k1, by rw [j2, k2]⟩
        · obtain ⟨⟨s2, i⟩, h2, h⟩ := Option.bind_eq_some_iff.1 h
          obtain ⟨j1, j2⟩ := lastTry_balanced h2
          cases h
          exact ⟨j2.trans k1, by simp only [popGoal, j1, k2, afterLoop]⟩
      · obtain ⟨j1, j2⟩ := ih h
        exact ⟨j1.trans k1, by rw [j2, k2]⟩

theorem concave_balanced (hc : Balanced child) {edge} : ∀ {vs : List VId} {s s' : ProgressState P V T} {r},
    s.concave child edge vs = some (s', r) → s'.goals = s.goals.dropLast ∧ s'.bad = s.bad
  | [], s, s', r, h => by
    cases h
    exact ⟨rfl, rfl⟩
  | v :: vs, s, s', r, h => by
    rw [concave] at h
    obtain ⟨w, -, h⟩ := Option.bind_eq_some_iff.1 h
    obtain ⟨⟨s1, i⟩, h1, h⟩ := Option.bind_eq_some_iff.1 h
    obtain ⟨k1, k2⟩ := tryTri_balanced hc h1
    cases i with
    | none =>
      obtain ⟨j1, j2⟩ := concave_balanced hc h
      exact ⟨by rw [j1, k1], j2.trans k2⟩
    | some i =>
      cases h
      exact ⟨by simp only [popGoal, k1], k2⟩

theorem finish32_balanced (hc : Balanced child) {edge opps r} (h : s.finish32 tests child edge opps = some (s', r)) :
    s'.goals = s.goals.dropLast ∧ s'.bad = s.bad := by
  unfold finish32 at h
  split_ifs at h
  simp only [Option.bind_eq_bind, Option.bind_eq_some_iff] at h
  obtain ⟨_, -, _, -, _, -, _, -, ⟨v0, v1⟩, -, h⟩ := h
  simp only [Option.bind_eq_some_iff] at h
  obtain ⟨_, -, h⟩ := h
  split_ifs at h
  · exact concave_balanced hc h
  · simp only [Option.bind_eq_some_iff] at h
    obtain ⟨_, -, _, -, _, -, h⟩ := h
    split_ifs at h
    · simp only [Option.bind_eq_some_iff] at h
      obtain ⟨⟨m', ws⟩, -, h⟩ := h
      simp only [Option.bind_eq_some_iff] at h
      obtain ⟨_, -, _, -, h⟩ := h
      cases h
      exact ⟨rfl, rfl⟩
    · cases h
      exact ⟨rfl, rfl⟩

theorem edgeStep_balanced (hc : Balanced child) (fuel : Nat) : Balanced (edgeStep tests fuel child) := by
  intro w s s' r h
  unfold edgeStep at h
  simp only [Option.bind_eq_bind, Option.bind_eq_some_iff] at h
  obtain ⟨_, -, _, -, h⟩ := h
  split_ifs at h
  · cases h
    exact ⟨rfl, rfl⟩
  · simp only [Option.bind_eq_some_iff] at h
    obtain ⟨_, -, _, -, _, -, ⟨s1, p⟩, h1, h⟩ := h
    obtain ⟨k1, k2⟩ := reduceLoop_balanced hc h1
    cases p with
    | inl i =>
      cases h
      exact ⟨by rw [k2]; simp only [pushGoal, afterLoop, List.dropLast_concat], k1⟩
    | inr L =>
      obtain ⟨j1, j2⟩ := finish32_balanced hc h
      exact ⟨by rw [j1, k2]; simp only [pushGoal, afterLoop, List.dropLast_concat], j2.trans k1⟩

theorem triStep_balanced (hc : Balanced child) : Balanced (triStep tests child) := by
  intro w s s' r h
  unfold triStep at h
  simp only [Option.bind_eq_bind, Option.bind_eq_some_iff] at h
  obtain ⟨_, -, h⟩ := h
  split_ifs at h
  · cases h
    exact ⟨rfl, rfl⟩
  · simp only [Option.bind_eq_some_iff] at h
    obtain ⟨_, -, _, -, ⟨v0, v1, v2, v3⟩, -, h⟩ := h
    simp only [Option.bind_eq_some_iff] at h
    obtain ⟨_, -, h⟩ := h
    split at h
    · simp only [Option.bind_eq_some_iff] at h
      obtain ⟨⟨s1, i⟩, h1, h⟩ := h
      obtain ⟨k1, k2⟩ := hc _ _ _ _ h1
      cases h
      exact ⟨by simp only [popGoal, k1, pushGoal, List.dropLast_concat], k2⟩
    · split_ifs at h
      · simp only [Option.bind_eq_some_iff] at h
        obtain ⟨⟨m', ws⟩, -, h⟩ := h
        simp only [Option.bind_eq_some_iff] at h
        obtain ⟨_, -, _, -, h⟩ := h
        cases h
        exact ⟨by simp only [popGoal, pushGoal, List.dropLast_concat], rfl⟩
      · cases h
        exact ⟨by simp only [popGoal, pushGoal, List.dropLast_concat], rfl⟩

theorem progress_balanced (tests : ProgressTests P V T) (fuel depth : Nat) :
    Balanced (progress tests fuel depth).1 ∧ Balanced (progress tests fuel depth).2 := by
  induction depth with
  | zero => constructor <;> (intro w s s' r h; cases h; exact ⟨rfl, rfl⟩)
  | succ d ih => exact ⟨edgeStep_balanced ih.2 fuel, triStep_balanced ih.1⟩

/-- C45: whenever the functions return, whatever the mesh and the tests, both stacks are as they were before. -/
theorem C45_balanced {m : Mesh P V T} {tests : ProgressTests P V T} {fuel depth w goals bad s r}
    (h : m.progressEdge tests fuel depth w goals bad = some (s, r) ∨ m.progressTri tests fuel depth w goals bad = some (s, r)) :
    s.goals = goals ∧ s.bad = bad := by
  rcases h with h | h
  · exact (progress_balanced tests fuel depth).1 _ _ _ _ h
  · exact (progress_balanced tests fuel depth).2 _ _ _ _ h

/-- C45: with depth 0 nothing happens. -/
theorem C45_depth_zero (m : Mesh P V T) (tests : ProgressTests P V T) (fuel : Nat) (w : Walker) (goals : List EdgeOrTri)
    (bad : List (VId × VId)) :
    m.progressEdge tests fuel 0 w goals bad = some (⟨m, goals, bad⟩, none) ∧
      m.progressTri tests fuel 0 w goals bad = some (⟨m, goals, bad⟩, none) := ⟨rfl, rfl⟩

end balance

/-! ## C46 -/

theorem Spec.ProgressReady.fine {m : Mesh P V T} (h : ProgressReady tests m) : Fine tests m :=
  ⟨h.consistent.toT, h.tracked, h.orient, h.oriented, h.never⟩

/-- C46: `progress_by_removing_edge` ends at every depth, and what it does are flips of unlocked elements to positively
oriented tets.  Either it reports nothing and all goals and the edge are kept, or it reports the first of them that is
gone. -/
theorem C46_edge {m : Mesh P V T} (h : ProgressReady tests m) {goals bad} (hb : GoodCall m goals bad) {w : Walker}
    {a b : VId} (hw : m.edge w = some (a, b)) (depth : Nat) :
    ∃ N m' r, (∀ fuel ≥ N, m.progressEdge tests fuel depth w goals bad = some (⟨m', goals, bad⟩, r)) ∧
      Progressed tests m m' (goals ++ [.edge (sorted2 (a, b))]) bad r := by
  obtain ⟨c, d, hw⟩ := edge_tet4 hw
  obtain ⟨m', r, h1, h2⟩ := (ProgressState.progress_ok tests depth).1 ⟨m, goals, bad⟩ w a b c d h.fine hb hw
  obtain ⟨N, hN⟩ := eventually_atTop.1 h1
  exact ⟨N, m', r, hN, h2⟩

/-- C46: the same for `progress_by_removing_tri`. -/
theorem C46_tri {m : Mesh P V T} (h : ProgressReady tests m) {goals bad} (hb : GoodCall m goals bad) {w : Walker}
    {t : V3} (hw : m.tri w = some t) (depth : Nat) :
    ∃ N m' r, (∀ fuel ≥ N, m.progressTri tests fuel depth w goals bad = some (⟨m', goals, bad⟩, r)) ∧
      Progressed tests m m' (goals ++ [.tri (sorted3 t)]) bad r := by
  obtain ⟨a, b, c⟩ := t
  obtain ⟨d, hw⟩ := tri_tet4 hw
  obtain ⟨m', r, h1, h2⟩ := (ProgressState.progress_ok tests depth).2.1 ⟨m, goals, bad⟩ w a b c d h.fine hb hw
  obtain ⟨N, hN⟩ := eventually_atTop.1 h1
  exact ⟨N, m', r, hN, h2⟩

/-- C45: the index reported is that of a goal, or of the element itself, which comes after the goals. -/
theorem C45_index {m m' : Mesh P V T} {goals : List EdgeOrTri} {own : EdgeOrTri} {bad i}
    (h : Progressed tests m m' (goals ++ [own]) bad (some i)) : i ≤ goals.length := by
  obtain ⟨⟨g, h1, -⟩, -⟩ := h.removed i rfl
  have := (List.getElem?_eq_some_iff.1 h1).1
  simp at this
  omega

/-- C46: what flips like that keep.  The mesh stays consistent, the vertices and the locks are the same, and the functions can
be called again. -/
theorem C46_run {m m' : Mesh P V T} (h : ProgressReady tests m) (hr : ProgressRun tests m m') :
    ProgressReady tests m' ∧ SameVertices m m' ∧ SameLocks m m' ∧ FlipSteps m m' := by
  have hf := h.fine
  obtain ⟨h1, h2, h3, h4, h5⟩ := progressRun_keeps hf.cons hf.good hf.oriented hr
  have hf' := hf.run hr
  exact ⟨⟨h1.toSpec, hf'.track, hf'.good, hf'.oriented, hf'.never⟩, h2, h3, h4⟩

theorem chain_all {α : Type} {R : α → α → Prop} (p : α → Prop) (hp : ∀ a b, p a → R a b → p b) :
    ∀ (l : List α) (a : α), p a → List.IsChain R (a :: l) → ∀ u ∈ a :: l, p u
  | [], a, ha, _, u, hu => by rwa [List.mem_singleton.1 hu]
  | b :: l, a, ha, h, u, hu => by
    obtain ⟨h1, h2⟩ := List.isChain_cons_cons.1 h
    rcases List.mem_cons.1 hu with rfl | hu
    · exact ha
    · exact chain_all p hp l b (hp a b ha h1) h2 u hu

theorem mem_mapM {α β : Type} {f : α → Option β} : ∀ (l : List α) (r : List β), l.mapM f = some r →
    ∀ b ∈ r, ∃ a ∈ l, f a = some b
  | [], r, h, b, hb => by
    cases h
    simp at hb
  | a :: l, r, h, c, hc => by
    simp only [List.mapM_cons, Option.bind_eq_bind, Option.bind_eq_some_iff, Option.pure_def, Option.some.injEq] at h
    obtain ⟨b, h1, r', h2, rfl⟩ := h
    rcases List.mem_cons.1 hc with rfl | hc
    · exact ⟨a, by simp, h1⟩
    · obtain ⟨b', k1, k2⟩ := mem_mapM l r' h2 c hc
      exact ⟨b', by simp [k1], k2⟩

/-- C46: with three tets at an edge whose union does not allow a 3-to-2 flip, the source goes on to the triangles at the edge,
but this never changes anything, however large the depth. -/
theorem C46_concave {m : Mesh P V T} (h : ProgressReady tests m) {x y p q e : VId} {w : Walker}
    (hw : m.tet4 w = some (x, y, p, q)) (t1 : HasTet m (x, y, q, e)) (t2 : HasTet m (x, y, e, p))
    (hc : ¬ (tests.pos m (p, q, x, e) = true ∧ tests.pos m (p, q, e, y) = true)) (goals : List EdgeOrTri)
    (bad : List (VId × VId)) (depth : Nat) :
    ∃ N, ∀ fuel ≥ N, m.progressEdge tests fuel depth w goals bad = some (⟨m, goals, bad⟩, none) := by
  obtain ⟨l, thirds, -, r2, r3, -, -, r6⟩ := ring_of h.fine.cons hw
  have hring : Ring3 m x y p q e := by
    obtain ⟨w1, h1⟩ := t1
    obtain ⟨w2, h2⟩ := t2
    have hm := h.fine.cons
    have s0 : m.ringStep w = some w1 := by
      obtain ⟨o, r, k1, k2⟩ := ringStep_of hm hw
      rw [k1, hm.tri_eq (tet4_parts k2).2.2.2 (tet4_parts h1).2.2.2]
    have s1 : m.ringStep w1 = some w2 := by
      obtain ⟨o, r, k1, k2⟩ := ringStep_of hm h1
      rw [k1, hm.tri_eq (tet4_parts k2).2.2.2 (tet4_parts h2).2.2.2]
    have s2 : m.ringStep w2 = some w := by
      obtain ⟨o, r, k1, k2⟩ := ringStep_of hm h2
      rw [k1, hm.tri_eq (tet4_parts k2).2.2.2 (tet4_parts hw).2.2.2]
    have hall := chain_all (R := fun a b => m.ringStep a = some b) (fun u => u ∈ [w, w1, w2]) (by
      intro a b ha hab
      simp only [List.mem_cons, List.not_mem_nil, or_false] at ha ⊢
      rcases ha with rfl | rfl | rfl
      · rw [s0] at hab; cases hab; simp
      · rw [s1] at hab; cases hab; simp
      · rw [s2] at hab; cases hab; simp) (l ++ [w]) w (by simp) r2
    refine ⟨⟨w, hw⟩, ⟨w1, h1⟩, ⟨w2, h2⟩, fun z hz => ?_⟩
    obtain ⟨u, hu, hz⟩ := mem_mapM _ _ r3 z ((r6 z).2 hz)
    have := hall u (by simp only [List.mem_cons, List.mem_append] at hu ⊢; tauto)
    simp only [List.mem_cons, List.not_mem_nil, or_false] at this ⊢
    rcases this with rfl | rfl | rfl
    · rw [tet4_third hw] at hz; cases hz; simp
    · rw [tet4_third h1] at hz; cases hz; simp
    · rw [tet4_third h2] at hz; cases hz; simp
  obtain ⟨N, hN⟩ := eventually_atTop.1 ((ProgressState.progress_ok tests depth).2.2.1 m x y p q e w goals bad h.fine
    ⟨hring, hc⟩ hw)
  exact ⟨N, hN⟩

/-! ### The orientation test of the program -/

section
variable {K : Type} [Field K] [LinearOrder K] [IsStrictOrderedRing K]

/-- C46: `orient_3d > 0` is a test as it is expected. -/
theorem C46_orient (m : Mesh (Pt K) V T) : GoodOrient Mesh.positive m := by
  refine ⟨fun m' h q => ?_, fun a b c d q hn hs => ?_, fun a b c d h => ?_⟩
  · unfold Mesh.positive Mesh.orient
    rw [sameVertices_idxOri h]
  · obtain ⟨a', b', c', d'⟩ := q
    unfold Mesh.positive
    simp only [orient_same hs]
  · unfold Mesh.positive at h ⊢
    simp only [(orient_alt m a b c d).2.2] at h ⊢
    cases ho : m.orient a b c d with
    | none => simp
    | some x =>
      simp only [ho, decide_eq_true_eq] at h
      simp only [Option.map_some, decide_eq_false_iff_not, not_lt]
      linarith

/-- C46: if all tets are positively oriented, then the mesh is oriented as expected. -/
theorem C46_positive {pos : Mesh P V T → V4 → Bool} {m : Mesh P V T} (hg : GoodOrient pos m)
    (h : ∀ q, HasTet m q → pos m q = true) : Oriented pos m := by
  intro a b c d ht
  have h1 := hg.mirror _ _ _ _ (h _ ht)
  refine ⟨h1, fun h2 => ?_⟩
  rw [h _ h2] at h1
  cases h1

end

/-! ### Examples -/

/-- `rat5` with a fifth vertex beyond a triangle of the tet, not yet in a tet. -/
def ratW : Option (Mesh (Pt ℚ) Nat Unit) := rat5.bind fun m =>
  (m.vertices.insert (Vertex.new invalidWalker ⟨1, 1, 1⟩ 4)).map fun r => { m with vertices := r.1 }

/-- The vertex joined to the triangle: two tets with a common triangle, and the ghost tets. -/
def ratA : Option (Mesh (Pt ℚ) Nat Unit) := (ratW.bind fun m =>
  (m.flip14Unchecked (Mesh.walkerFromTetId 1) 4).map (·.1)).bind fun m => m.setTrackTriMap true

/-- The tets of `ratA`. -/
def ratTets : List V4 :=
  [(0, 1, 3, 2), (4, 3, 2, GHOST), (0, 2, 3, GHOST), (2, 0, 1, GHOST), (3, 1, 0, GHOST), (1, 4, 2, GHOST),
    (1, 3, 4, GHOST), (1, 3, 2, 4)]

/-- The tets of `ratA`, and those after removing the triangle. -/
def ratStates : List (List V4) :=
  [ratTets, [(0, 1, 3, 4), (0, 1, 4, 2), (0, 2, 4, 3), (4, 3, 2, GHOST), (0, 2, 3, GHOST), (2, 0, 1, GHOST),
    (3, 1, 0, GHOST), (1, 4, 2, GHOST), (1, 3, 4, GHOST)]]

/-- The orientation test of the program, and everything may be added. -/
def exTests : ProgressTests (Pt ℚ) Nat Unit := ⟨Mesh.positive, fun _ _ => true, fun _ _ => true⟩

theorem ratW_ok : ∃ m, ratW = some m ∧ Consistent m := by
  obtain ⟨m, h1, h2, -⟩ := C14_new (fun a b c d => decide (0 < orient3d a b c d)) Pt.centroid4 (⟨0, 0, 0⟩ : Pt ℚ)
    (⟨0, 0, 0⟩, 0) (⟨1, 0, 0⟩, 1) (⟨0, 1, 0⟩, 2) (⟨0, 0, 1⟩, 3) ()
  have h1 : rat5 = some m := h1
  have h3 : ratW.isSome = true := by decide +kernel
  obtain ⟨m', h3⟩ := Option.isSome_iff_exists.1 h3
  have h4 := h3
  rw [ratW, h1, Option.bind_some] at h4
  obtain ⟨⟨v1, i1⟩, h5, h4⟩ := Option.map_eq_some_iff.1 h4
  exact ⟨m', h3, by rw [← h4]; exact (h2.toT.addVertex h5).1.toSpec⟩

theorem ratA_ok : ∃ m, ratA = some m ∧ Consistent m ∧ m.trackTriMap = true := by
  obtain ⟨m, h1, h2⟩ := ratW_ok
  obtain ⟨m', _, _, _, _, h3, h4, -⟩ := C18_flip14 h2 (k := 1) (v := 4)
    (of_map (f := fun m => m.tet4 (Mesh.walkerFromTetId 1)) (b := some (1, 3, 2, GHOST)) h1 (by decide +kernel))
    (fun h => by
      have := of_map (f := fun m => (m.vertices.get 4).isSome) (b := true) h1 (by decide +kernel)
      simp [h] at this)
    (first_of_check (of_map (f := fun m => noVertex m 4) h1 (by decide +kernel)))
    (of_map (f := fun m => m.numTets) (b := some 5) h1 (by decide +kernel))
    (of_map (f := fun m => m.numEdges) (b := some 10) h1 (by decide +kernel)) (by decide) (by decide)
  obtain ⟨m2, k1, k2, k3, -⟩ := C28_track_exact h4
  exact ⟨m2, by rw [ratA, h1, Option.bind_some, h3]; exact k1, k3, k2⟩

theorem ratA_shows {m : Mesh (Pt ℚ) Nat Unit} (h : ratA = some m) : Shows m ratTets :=
  shows_of (of_map (f := fun m => m.tets.keys.filterMap fun k => (m.tets.get k).map fun t =>
    (t.vertices 0, t.vertices 1, t.vertices 2, t.vertices 3)) h (by decide +kernel))

theorem ratA_pos {m : Mesh (Pt ℚ) Nat Unit} (h : ratA = some m) (q : V4) (hq : HasTet m q) : m.positive q = true :=
  List.all_eq_true.1 (of_map (f := fun m => (full ratTets).all m.positive) (b := true) h (by decide +kernel)) q
    ((ratA_shows h q).1 hq)

/-- All positively oriented tets with vertices of `ratA`. -/
def ratPositive : List V4 :=
  [(0, 1, 3, 2), (0, 1, 4, 2), (0, 1, 2, GHOST), (0, 1, 3, 4), (0, 1, GHOST, 3), (0, 2, 4, 3), (0, 2, 3, GHOST),
    (1, 2, 4, 3), (1, 2, GHOST, 3), (1, 2, GHOST, 4), (1, 3, 4, GHOST), (2, 3, GHOST, 4)]

theorem ratA_all {m : Mesh (Pt ℚ) Nat Unit} (h : ratA = some m) (q : V4) (hq : m.positive q = true) :
    inFull q ratPositive = true := by
  have hv : ∀ v p, m.idxOri v = some p → v ∈ [0, 1, 2, 3, 4, GHOST] := by
    intro v p hp
    have h5 := of_map (f := fun m => m.vertices.keys) (b := [0, 1, 2, 3, 4]) h (by decide +kernel)
    by_cases hG : v = GHOST
    · simp [hG]
    · have : v ∈ m.vertices.keys := by
        rw [Mesh.idxOri, if_neg hG, Mesh.idx] at hp
        obtain ⟨x, hx, -⟩ := Option.map_eq_some_iff.1 hp
        exact IdMap.mem_keys.2 (by simp [hx])
      rw [h5] at this
      simp only [List.mem_cons, List.not_mem_nil, or_false] at this ⊢
      tauto
  obtain ⟨a, b, c, d⟩ := q
  cases ho : m.orient a b c d with
  | none => simp [Mesh.positive, ho] at hq
  | some x =>
  obtain ⟨p0, h0, ho⟩ := Option.bind_eq_some_iff.1 ho
  obtain ⟨p1, h1, ho⟩ := Option.bind_eq_some_iff.1 ho
  obtain ⟨p2, h2, ho⟩ := Option.bind_eq_some_iff.1 ho
  obtain ⟨p3, h3, -⟩ := Option.bind_eq_some_iff.1 ho
  have hall := of_map (f := fun m => [0, 1, 2, 3, 4, GHOST].all fun a => [0, 1, 2, 3, 4, GHOST].all fun b =>
    [0, 1, 2, 3, 4, GHOST].all fun c => [0, 1, 2, 3, 4, GHOST].all fun d =>
      !m.positive (a, b, c, d) || inFull (a, b, c, d) ratPositive) (b := true) h (by decide +kernel)
  have := List.all_eq_true.1 (List.all_eq_true.1 (List.all_eq_true.1 (List.all_eq_true.1 hall a (hv _ _ h0)) b
    (hv _ _ h1)) c (hv _ _ h2)) d (hv _ _ h3)
  rw [hq] at this
  simpa using this

theorem rat_flips : okFlips (inFull · ratPositive) ratStates = true := by decide +kernel

/-- `ratA` meets the hypotheses: it never gets stuck. -/
theorem ratA_ready : ∃ m, ratA = some m ∧ ProgressReady exTests m := by
  obtain ⟨m, h1, h2, h3⟩ := ratA_ok
  have hg : GoodOrient exTests.pos m := C46_orient m
  have ho : Oriented exTests.pos m := C46_positive hg (ratA_pos h1)
  exact ⟨m, h1, h2, h3, hg, ho, never_of_states (states := ratStates) h2.toT hg ho (ratA_shows h1) (by simp [ratStates])
    (ratA_all h1) rat_flips (by simp [ratStates, ratTets, idMax])⟩

theorem goodCall_nil (m : Mesh P V T) : GoodCall m [] [] := ⟨by simp, by simp⟩

/-- Removing the triangle between the two tets; it is reported as goal 0, since there are no other goals. -/
example : ∃ m, ratA = some m ∧ ProgressReady exTests m ∧ GoodCall m [] [] ∧ m.tri ⟨0, 8⟩ = some (1, 2, 3) ∧
    (m.progressTri exTests 40 1 ⟨0, 8⟩ [] []).map (fun r => (r.2, r.1.mesh.numTets)) = some (some 0, some 9) := by
  obtain ⟨m, h1, h2⟩ := ratA_ready
  exact ⟨m, h1, h2, goodCall_nil m, of_map (f := fun m => m.tri ⟨0, 8⟩) h1 (by decide +kernel),
    of_map (f := fun m => (m.progressTri exTests 40 1 ⟨0, 8⟩ [] []).map (fun r => (r.2, r.1.mesh.numTets))) h1
      (by decide +kernel)⟩

/-- Removing it as the second of two goals, where the first one stays. -/
example : ∃ m, ratA = some m ∧ ProgressReady exTests m ∧ GoodCall m [.edge (0, 1)] [(0, 1)] ∧
    (m.progressTri exTests 40 1 ⟨0, 8⟩ [.edge (0, 1)] []).map (fun r => (r.2, r.1.mesh.numTets)) =
      some (some 1, some 9) := by
  obtain ⟨m, h1, h2⟩ := ratA_ready
  refine ⟨m, h1, h2, ⟨by simp [SortedGoal], ?_⟩, of_map (f := fun m =>
    (m.progressTri exTests 40 1 ⟨0, 8⟩ [.edge (0, 1)] []).map (fun r => (r.2, r.1.mesh.numTets))) h1 (by decide +kernel)⟩
  simp only [List.mem_singleton, forall_eq, true_and]
  refine h2.consistent.toT.hasEdge_tet.2 ⟨3, 2, (ratA_shows h1 _).2 (by decide +kernel)⟩

/-- C46: `None` does not mean that the mesh is unchanged.  Here an edge is to be removed with two levels; that fails,
but the triangle next to it has been replaced by an edge on the way. -/
theorem C46_none_changes : ∃ m, ratA = some m ∧ ProgressReady exTests m ∧ m.edge ⟨0, 8⟩ = some (1, 2) ∧
    ∃ s, m.progressEdge exTests 40 2 ⟨0, 8⟩ [] [] = some (s, none) ∧ m.numTets = some 8 ∧ s.mesh.numTets = some 9 := by
  obtain ⟨m, h1, h2⟩ := ratA_ready
  have h3 := of_map (f := fun m => (m.progressEdge exTests 40 2 ⟨0, 8⟩ [] []).map (fun r => (r.2, r.1.mesh.numTets)))
    (b := some (none, some 9)) h1 (by decide +kernel)
  obtain ⟨⟨s, r⟩, h4, h5⟩ := Option.map_eq_some_iff.1 h3
  obtain ⟨rfl, h6⟩ := Prod.mk.inj h5
  exact ⟨m, h1, h2, of_map (f := fun m => m.edge ⟨0, 8⟩) h1 (by decide +kernel), s, h4,
    of_map (f := fun m => m.numTets) h1 (by decide +kernel), h6⟩

/-- An edge at the hull with three tets around it, two of them ghosts. -/
example : ∃ m, ratA = some m ∧ ProgressReady exTests m ∧ ∃ w, m.tet4 w = some (0, 1, 3, 2) ∧
    HasTet m (0, 1, 2, GHOST) ∧ HasTet m (0, 1, GHOST, 3) ∧
    ¬ (exTests.pos m (3, 2, 0, GHOST) = true ∧ exTests.pos m (3, 2, GHOST, 1) = true) := by
  obtain ⟨m, h1, h2⟩ := ratA_ready
  have hS := ratA_shows h1
  obtain ⟨w, hw⟩ := (hS (0, 1, 3, 2)).2 (by decide +kernel)
  refine ⟨m, h1, h2, w, hw, (hS _).2 (by decide +kernel), (hS _).2 (by decide +kernel), fun ⟨k1, k2⟩ => ?_⟩
  have := of_map (f := fun m => m.positive (3, 2, 0, GHOST) && m.positive (3, 2, GHOST, 1)) (b := false) h1 (by decide +kernel)
  simp only [exTests] at k1 k2
  simp [k1, k2] at this

end Tet
