import Mathlib.Logic.Relation
import Verif.Proofs.Star

/-!
# The tets at a vertex are connected

Connectedness through shared edges at the vertex is a property of the set of tets only, so it can
be followed through flips; because the tets around an edge form one ring it implies connectedness
through triangles.
-/

namespace Tet
open Spec
variable {P V T : Type}

/-- Two tets with a common edge at `x`. -/
def ShareStep (m : Mesh P V T) (x : VId) (p q : V4) : Prop :=
  HasTet m p ∧ HasTet m q ∧ x ∈ list4 p ∧ x ∈ list4 q ∧ ∃ u, u ≠ x ∧ u ∈ list4 p ∧ u ∈ list4 q

def TetConn (m : Mesh P V T) (x : VId) : Prop :=
  ∀ p q, HasTet m p → HasTet m q → x ∈ list4 p → x ∈ list4 q → Relation.ReflTransGen (ShareStep m x) p q

theorem list4_two {m : Mesh P V T} {q : V4} {a b : VId} (h : HasTet m q) (ha : a ∈ list4 q)
    (hb : b ∈ list4 q) (hab : b ≠ a) : ∃ c d, HasTet m (a, b, c, d) ∧ SameTet q (a, b, c, d) := by
  obtain ⟨x, y, z, w⟩ := q
  simp only [list4, List.mem_cons, List.not_mem_nil, or_false] at ha hb
  rcases ha with rfl | rfl | rfl | rfl <;> rcases hb with rfl | rfl | rfl | rfl <;>
    first
      | exact absurd rfl hab
      | exact ⟨_, _, HasTet.same h (sameTet_code 0 rfl), sameTet_code 0 rfl⟩
      | exact ⟨_, _, HasTet.same h (sameTet_code 1 rfl), sameTet_code 1 rfl⟩
      | exact ⟨_, _, HasTet.same h (sameTet_code 2 rfl), sameTet_code 2 rfl⟩
      | exact ⟨_, _, HasTet.same h (sameTet_code 3 rfl), sameTet_code 3 rfl⟩
      | exact ⟨_, _, HasTet.same h (sameTet_code 4 rfl), sameTet_code 4 rfl⟩
      | exact ⟨_, _, HasTet.same h (sameTet_code 5 rfl), sameTet_code 5 rfl⟩
      | exact ⟨_, _, HasTet.same h (sameTet_code 6 rfl), sameTet_code 6 rfl⟩
      | exact ⟨_, _, HasTet.same h (sameTet_code 7 rfl), sameTet_code 7 rfl⟩
      | exact ⟨_, _, HasTet.same h (sameTet_code 8 rfl), sameTet_code 8 rfl⟩
      | exact ⟨_, _, HasTet.same h (sameTet_code 9 rfl), sameTet_code 9 rfl⟩
      | exact ⟨_, _, HasTet.same h (sameTet_code 10 rfl), sameTet_code 10 rfl⟩
      | exact ⟨_, _, HasTet.same h (sameTet_code 11 rfl), sameTet_code 11 rfl⟩

/-- Walkers that show the same tet are on the same tet. -/
theorem ConsistentT.sameTet_tet {m : Mesh P V T} (hm : ConsistentT m) {w w' : Walker} {p q : V4}
    (h : m.tet4 w = some p) (h' : m.tet4 w' = some q) (hs : SameTet p q) : w'.tet = w.tet := by
  obtain ⟨t, h1, h2⟩ := Mesh.tet4_iff.1 h
  obtain ⟨t', h3, h4⟩ := Mesh.tet4_iff.1 h'
  refine hm.tet_unique h1 h3 (q := quad q) ?_ ?_
  · have := t.rearr_tet w.edge
    rw [h2] at this
    exact EvenRearr.trans this hs
  · have := t'.rearr_tet w'.edge
    rwa [h4] at this

theorem Spec.StarReach.trans {m : Mesh P V T} {v : VId} {k k' k'' : TId} (h : StarReach m v k k')
    (h' : StarReach m v k' k'') : StarReach m v k k'' := by
  induction h' with
  | refl => exact h
  | cross _ h1 h2 ih => exact .cross ih h1 h2

/-- Turning around an edge at `v` stays connected. -/
theorem ring_star {m : Mesh P V T} (hm : ConsistentT m) {v u : VId} {a b : Walker}
    (ha : m.edge a = some (v, u)) (h : SameRing m a b) : StarReach m v a.tet b.tet ∧ m.edge b = some (v, u) := by
  induction h with
  | refl => exact ⟨.refl, ha⟩
  | @step b c _ hs ih =>
    obtain ⟨ih1, ih2⟩ := ih
    obtain ⟨p, q, hb⟩ := edge_tet4 ih2
    obtain ⟨c', h1, h2⟩ := hm.adj_tri (tet4_parts (tet4_twin hb)).2.2.2
    rw [hs] at h1
    cases h1
    obtain ⟨r, h3⟩ := tri_tet4 h2
    refine ⟨?_, (tet4_parts h3).2.2.1⟩
    have k1 := tet4_perm (tet4_twin hb) P1203
    have k2 : m.toAdj (b.twin.perm P1203) = some c.pfe := by
      rw [← (walker_moves _).1, Mesh.toAdj_nfe, hs]
      rfl
    exact StarReach.cross (w := b.twin.perm P1203) (w' := c.pfe) ih1 (tet4_parts k1).1 k2
  | @back b c _ hs ih =>
    obtain ⟨ih1, ih2⟩ := ih
    obtain ⟨p, q, hb⟩ := edge_tet4 ih2
    have hs' := hm.adj_back hs
    obtain ⟨c', h1, h2⟩ := hm.adj_tri (tet4_parts hb).2.2.2
    rw [hs'] at h1
    cases h1
    obtain ⟨r, h3⟩ := tri_tet4 h2
    have h4 := tet4_twin h3
    rw [Walker.twin_twin] at h4
    exact ⟨StarReach.cross (w := b) (w' := c.twin) ih1 (tet4_parts hb).1 hs', (tet4_parts h4).2.2.1⟩

theorem TetConn.star {m : Mesh P V T} (hm : ConsistentT m) {v : VId} (h : TetConn m v) : StarConnected m v := by
  have main : ∀ p q, Relation.ReflTransGen (ShareStep m v) p q → ∀ w w', m.tet4 w = some p → m.tet4 w' = some q →
      StarReach m v w.tet w'.tet := by
    intro p q hpq
    induction hpq with
    | refl =>
      intro w w' h1 h2
      rw [hm.sameTet_tet h1 h2 (EvenRearr.refl _)]
      exact .refl
    | @tail q r _ hs ih =>
      intro w w' h1 h2
      obtain ⟨hq, hr, vq, vr, u, hu, uq, ur⟩ := hs
      obtain ⟨wq, hwq⟩ := hq
      refine (ih w wq h1 hwq).trans ?_
      obtain ⟨c, d, ⟨x, hx⟩, s1⟩ := list4_two ⟨wq, hwq⟩ vq uq hu
      obtain ⟨c', d', ⟨x', hx'⟩, s2⟩ := list4_two hr vr ur hu
      have hring := hm.toSpec.oneRing x x' (v, u) (tet4_parts hx).2.2.1 (tet4_parts hx').2.2.1
      have := (ring_star hm (tet4_parts hx).2.2.1 hring).1
      rw [hm.sameTet_tet hwq hx s1] at this
      rwa [hm.sameTet_tet h2 hx' s2] at this
  intro w w' h1 h2
  obtain ⟨b, c, d, h1⟩ := first_tet4 h1
  obtain ⟨b', c', d', h2⟩ := first_tet4 h2
  exact main _ _ (h _ _ ⟨_, h1⟩ ⟨_, h2⟩ (by simp [list4]) (by simp [list4])) w w' h1 h2

/-! ## Replacing tets -/

theorem Spec.Replaces.tetConn {m m' : Mesh P V T} {old new : List V4} (hrep : Replaces m m' old new) {x : VId}
    (h1 : ∀ p ∈ new, ∀ q ∈ new, x ∈ list4 p → x ∈ list4 q → ∃ u, u ≠ x ∧ u ∈ list4 p ∧ u ∈ list4 q)
    (h2 : ∀ p ∈ old, x ∈ list4 p → ∃ q ∈ new, x ∈ list4 q)
    (h3 : ∀ p ∈ old, x ∈ list4 p → ∀ u ∈ list4 p, u ≠ x → (∃ q ∈ new, x ∈ list4 q ∧ u ∈ list4 q) ∨
      ∀ q, HasTet m q → x ∈ list4 q → u ∈ list4 q → ∃ p ∈ old, SameTet p q)
    (h4 : (∃ p ∈ new, x ∈ list4 p) → (∃ p ∈ old, x ∈ list4 p) ∨ ∀ q, HasTet m q → x ∉ list4 q)
    (h : TetConn m x) : TetConn m' x := by
  classical
  have hnew : ∀ p ∈ new, HasTet m' p := fun p hp => (hrep.2 p).2 (.inr ⟨p, hp, EvenRearr.refl _⟩)
  -- tets that stand for new tets are connected
  have joined : ∀ p q, (∃ p0 ∈ new, SameTet p0 p) → (∃ q0 ∈ new, SameTet q0 q) → x ∈ list4 p → x ∈ list4 q →
      ShareStep m' x p q := by
    rintro p q ⟨p0, hp0, sp⟩ ⟨q0, hq0, sq⟩ hp hq
    obtain ⟨u, hu, hup, huq⟩ := h1 p0 hp0 q0 hq0 ((SameTet.mem sp x).2 hp) ((SameTet.mem sq x).2 hq)
    exact ⟨HasTet.same (hnew _ hp0) sp, HasTet.same (hnew _ hq0) sq, hp, hq, u, hu,
      (SameTet.mem sp u).1 hup, (SameTet.mem sq u).1 huq⟩
  have symm : ∀ p q, ShareStep m' x p q → ShareStep m' x q p :=
    fun p q ⟨a, b, c, d, u, e, f, g⟩ => ⟨b, a, d, c, u, e, g, f⟩
  -- the relation: `p` of the old mesh is represented by `p'` of the new one
  let Rep : V4 → V4 → Prop := fun p p' =>
    (p' = p ∧ ∀ o ∈ old, ¬ SameTet o p) ∨ ((∃ o ∈ old, SameTet o p) ∧ p' ∈ new ∧ x ∈ list4 p')
  have step : ∀ p q p' q', ShareStep m x p q → Rep p p' → Rep q q' →
      Relation.ReflTransGen (ShareStep m' x) p' q' := by
    have mixed : ∀ p q p', ShareStep m x p q → ((∃ o ∈ old, SameTet o p) ∧ p' ∈ new ∧ x ∈ list4 p') →
        (∀ o ∈ old, ¬ SameTet o q) → ∃ n, ShareStep m' x p' n ∧ ShareStep m' x n q := by
      rintro p q p' ⟨hp, hq, xp, xq, u, hu, up, uq⟩ ⟨⟨o, ho, so⟩, hp', xp'⟩ hsurv
      rcases h3 o ho ((SameTet.mem so x).2 xp) u ((SameTet.mem so u).2 up) hu with ⟨n, hn, xn, un⟩ | hall
      · exact ⟨n, joined p' n ⟨p', hp', EvenRearr.refl _⟩ ⟨n, hn, EvenRearr.refl _⟩ xp' xn,
          hnew n hn, (hrep.2 q).2 (.inl ⟨hq, hsurv⟩), xn, xq, u, hu, un, uq⟩
      · obtain ⟨o', ho', hs⟩ := hall q hq xq uq
        exact absurd hs (hsurv o' ho')
    rintro p q p' q' hs (⟨rfl, hp⟩ | hp) (⟨rfl, hq⟩ | hq)
    · obtain ⟨a, b, c, d, e⟩ := hs
      exact .single ⟨(hrep.2 _).2 (.inl ⟨a, hp⟩), (hrep.2 _).2 (.inl ⟨b, hq⟩), c, d, e⟩
    · obtain ⟨n, n1, n2⟩ := mixed q p' q' (by obtain ⟨a, b, c, d, u, e, f, g⟩ := hs; exact ⟨b, a, d, c, u, e, g, f⟩) hq hp
      exact .tail (.single (symm _ _ n2)) (symm _ _ n1)
    · obtain ⟨n, n1, n2⟩ := mixed p q' p' hs hp hq
      exact .tail (.single n1) n2
    · exact .single (joined p' q' ⟨p', hp.2.1, EvenRearr.refl _⟩ ⟨q', hq.2.1, EvenRearr.refl _⟩ hp.2.2 hq.2.2)
  have ex : ∀ p, HasTet m p → x ∈ list4 p → ∃ p', Rep p p' := by
    intro p hp xp
    by_cases ho : ∃ o ∈ old, SameTet o p
    · obtain ⟨o, ho', so⟩ := ho
      obtain ⟨n, hn, xn⟩ := h2 o ho' ((SameTet.mem so x).2 xp)
      exact ⟨n, .inr ⟨⟨o, ho', so⟩, hn, xn⟩⟩
    · push Not at ho
      exact ⟨p, .inl ⟨rfl, ho⟩⟩
  have uniq : ∀ p p' p'', Rep p p' → Rep p p'' → Relation.ReflTransGen (ShareStep m' x) p' p'' := by
    rintro p p' p'' (⟨rfl, hp⟩ | hp) (⟨rfl, hq⟩ | hq)
    · exact .refl
    · obtain ⟨o, ho, so⟩ := hq.1
      exact absurd so (hp o ho)
    · obtain ⟨o, ho, so⟩ := hp.1
      exact absurd so (hq o ho)
    · exact .single (joined p' p'' ⟨p', hp.2.1, EvenRearr.refl _⟩ ⟨p'', hq.2.1, EvenRearr.refl _⟩ hp.2.2 hq.2.2)
  have path : ∀ p q, Relation.ReflTransGen (ShareStep m x) p q → ∀ p' q', Rep p p' → Rep q q' →
      Relation.ReflTransGen (ShareStep m' x) p' q' := by
    intro p q hpq
    induction hpq with
    | refl => intro p' q' h h'; exact uniq _ _ _ h h'
    | @tail q r _ hs ih =>
      intro p' r' hp hr
      obtain ⟨q', hq'⟩ := ex q hs.1 hs.2.2.1
      exact (ih p' q' hp hq').trans (step _ _ _ _ hs hq' hr)
  intro p q hp hq xp xq
  -- every tet of the new mesh represents one of the old mesh, unless the vertex is new
  have back : ∀ p, HasTet m' p → x ∈ list4 p → (∃ p0, HasTet m p0 ∧ x ∈ list4 p0) →
      ∃ p0 p', HasTet m p0 ∧ x ∈ list4 p0 ∧ Rep p0 p' ∧ Relation.ReflTransGen (ShareStep m' x) p p' ∧
        Relation.ReflTransGen (ShareStep m' x) p' p := by
    rintro p hp xp hold
    rcases (hrep.2 p).1 hp with ⟨h5, h6⟩ | ⟨n, hn, sn⟩
    · exact ⟨p, p, h5, xp, .inl ⟨rfl, h6⟩, .refl, .refl⟩
    · have xn := (SameTet.mem sn x).2 xp
      rcases h4 ⟨n, hn, xn⟩ with ⟨o, ho, xo⟩ | hno
      · refine ⟨o, n, hrep.1 o ho, xo, .inr ⟨⟨o, ho, EvenRearr.refl _⟩, hn, xn⟩, ?_, ?_⟩
        · exact .single (joined p n ⟨n, hn, sn⟩ ⟨n, hn, EvenRearr.refl _⟩ xp xn)
        · exact .single (joined n p ⟨n, hn, EvenRearr.refl _⟩ ⟨n, hn, sn⟩ xn xp)
      · obtain ⟨p0, h5, h6⟩ := hold
        exact absurd h6 (hno p0 h5)
  by_cases hold : ∃ p0, HasTet m p0 ∧ x ∈ list4 p0
  · obtain ⟨p0, p', a1, a2, a3, a4, a5⟩ := back p hp xp hold
    obtain ⟨q0, q', b1, b2, b3, b4, b5⟩ := back q hq xq hold
    exact (a4.trans (path p0 q0 (h p0 q0 a1 b1 a2 b2) p' q' a3 b3)).trans b5
  · push Not at hold
    have isnew : ∀ p, HasTet m' p → x ∈ list4 p → ∃ n ∈ new, SameTet n p := by
      intro p hp xp
      rcases (hrep.2 p).1 hp with ⟨h5, -⟩ | h5
      · exact absurd xp (hold p h5)
      · exact h5
    exact .single (joined p q (isnew p hp xp) (isnew q hq xq) xp xq)

/-- A common edge makes all new tets adjacent. -/
theorem share_of_edge {new : List V4} {s t : VId} (hst : s ≠ t) (hall : ∀ p ∈ new, s ∈ list4 p ∧ t ∈ list4 p)
    (x : VId) : ∀ p ∈ new, ∀ q ∈ new, x ∈ list4 p → x ∈ list4 q → ∃ u, u ≠ x ∧ u ∈ list4 p ∧ u ∈ list4 q := by
  intro p hp q hq _ _
  by_cases hx : s = x
  · exact ⟨t, fun h => hst (hx.trans h.symm), (hall p hp).2, (hall q hq).2⟩
  · exact ⟨s, hx, (hall p hp).1, (hall q hq).1⟩

/-- The tets with the edge of a ring are those of the ring. -/
theorem ConsistentT.edge_old {m : Mesh P V T} (hm : ConsistentT m) {w : Walker} {x y : VId} (hw : m.edge w = some (x, y))
    {R : List Walker} (hwR : w ∈ R) (hclosed : ∀ a ∈ R, ∃ b ∈ R, m.ringStep a = some b)
    (hback : ∀ a ∈ R, ∃ b ∈ R, m.ringStep b = some a) {old : List V4}
    (hR : ∀ a ∈ R, ∃ p ∈ old, m.tet4 a = some p) (q : V4) (hq : HasTet m q) (hx : x ∈ list4 q) (hy : y ∈ list4 q) :
    ∃ p ∈ old, SameTet p q := by
  have hxy : y ≠ x := by
    obtain ⟨c, d, h⟩ := edge_tet4 hw
    exact (hm.ne4 h).1.symm
  obtain ⟨c, d, ⟨z, hz⟩, hs⟩ := list4_two hq hx hy hxy
  have hring := hm.toSpec.oneRing w z (x, y) hw (tet4_parts hz).2.2.1
  have : ∀ z, SameRing m w z → z ∈ R := by
    intro z hz
    induction hz with
    | refl => exact hwR
    | step _ h ih =>
      obtain ⟨b, hb, hb'⟩ := hclosed _ ih
      rw [Mesh.ringStep, h] at hb'
      cases hb'
      exact hb
    | back _ h ih =>
      obtain ⟨b, hb, hb'⟩ := hback _ ih
      rw [hm.ring_inj h hb']
      exact hb
  obtain ⟨p, hp, hzp⟩ := hR z (this z hring)
  rw [hz] at hzp
  cases hzp
  exact ⟨_, hp, SameTet.symm' hs⟩

theorem flip_pairs14 {a b c d v x u : VId} (hx : x ∈ list4 (a, b, c, d)) (hu : u ∈ list4 (a, b, c, d)) :
    ∃ q ∈ [(v, b, c, d), (a, v, c, d), (a, b, v, d), (a, b, c, v)], x ∈ list4 q ∧ u ∈ list4 q := by
  simp only [list4, List.mem_cons, List.not_mem_nil, or_false] at hx hu
  rcases hx with rfl | rfl | rfl | rfl <;> rcases hu with rfl | rfl | rfl | rfl <;> simp [list4]

theorem flip_pairs23 {a b c d e x u : VId} {p : V4} (hp : p ∈ [(a, b, c, d), (b, a, c, e)]) (hx : x ∈ list4 p)
    (hu : u ∈ list4 p) : ∃ q ∈ [(b, a, d, e), (a, c, d, e), (c, b, d, e)], x ∈ list4 q ∧ u ∈ list4 q := by
  simp only [List.mem_cons, List.not_mem_nil, or_false] at hp
  rcases hp with rfl | rfl <;>
  simp only [list4, List.mem_cons, List.not_mem_nil, or_false] at hx hu <;>
  rcases hx with rfl | rfl | rfl | rfl <;> rcases hu with rfl | rfl | rfl | rfl <;> simp [list4]

theorem flip_pairs32 {x y c d e z u : VId} {p : V4} (hp : p ∈ [(x, y, c, d), (x, y, d, e), (x, y, e, c)])
    (hz : z ∈ list4 p) (hu : u ∈ list4 p) (hne : u ≠ z) :
    (∃ q ∈ [(d, c, e, x), (c, d, e, y)], z ∈ list4 q ∧ u ∈ list4 q) ∨ (z = x ∧ u = y) ∨ (z = y ∧ u = x) := by
  simp only [List.mem_cons, List.not_mem_nil, or_false] at hp
  rcases hp with rfl | rfl | rfl <;>
  simp only [list4, List.mem_cons, List.not_mem_nil, or_false] at hz hu <;>
  rcases hz with rfl | rfl | rfl | rfl <;> rcases hu with rfl | rfl | rfl | rfl <;>
    first | exact absurd rfl hne | simp [list4]

theorem flip_pairs44 {x y p q r s z u : VId} {o : V4}
    (ho : o ∈ [(x, y, p, q), (x, y, q, r), (x, y, r, s), (x, y, s, p)])
    (hz : z ∈ list4 o) (hu : u ∈ list4 o) (hne : u ≠ z) :
    (∃ n ∈ [(r, p, q, y), (r, p, y, s), (r, p, s, x), (r, p, x, q)], z ∈ list4 n ∧ u ∈ list4 n) ∨
      (z = x ∧ u = y) ∨ (z = y ∧ u = x) := by
  simp only [List.mem_cons, List.not_mem_nil, or_false] at ho
  rcases ho with rfl | rfl | rfl | rfl <;>
  simp only [list4, List.mem_cons, List.not_mem_nil, or_false] at hz hu <;>
  rcases hz with rfl | rfl | rfl | rfl <;> rcases hu with rfl | rfl | rfl | rfl <;>
    first | exact absurd rfl hne | simp [list4]

theorem flip_mem44 {x y p q r s z : VId} :
    (∃ o ∈ [(x, y, p, q), (x, y, q, r), (x, y, r, s), (x, y, s, p)], z ∈ list4 o) ↔
    ∃ n ∈ [(r, p, q, y), (r, p, y, s), (r, p, s, x), (r, p, x, q)], z ∈ list4 n := by
  simp only [list4, List.mem_cons, List.not_mem_nil, or_false, exists_eq_or_imp, exists_eq_left]
  tauto

theorem share14 {a b c d v x : VId} (hv : v ∉ [a, b, c, d]) :
    ∀ p ∈ [(v, b, c, d), (a, v, c, d), (a, b, v, d), (a, b, c, v)],
    ∀ q ∈ [(v, b, c, d), (a, v, c, d), (a, b, v, d), (a, b, c, v)], x ∈ list4 p → x ∈ list4 q →
      ∃ u, u ≠ x ∧ u ∈ list4 p ∧ u ∈ list4 q := by
  intro p hp q hq _ _
  by_cases hx : x = v
  · subst hx
    simp only [List.mem_cons, List.not_mem_nil, or_false, not_or] at hv
    obtain ⟨h1, h2, h3, h4⟩ := hv
    simp only [List.mem_cons, List.not_mem_nil, or_false] at hp hq
    rcases hp with rfl | rfl | rfl | rfl <;> rcases hq with rfl | rfl | rfl | rfl <;>
      first
        | (refine ⟨a, Ne.symm h1, ?_, ?_⟩ <;> simp [list4] <;> done)
        | (refine ⟨b, Ne.symm h2, ?_, ?_⟩ <;> simp [list4] <;> done)
        | (refine ⟨c, Ne.symm h3, ?_, ?_⟩ <;> simp [list4] <;> done)
        | (refine ⟨d, Ne.symm h4, ?_, ?_⟩ <;> simp [list4] <;> done)
  · refine ⟨v, Ne.symm hx, ?_, ?_⟩
    · simp only [List.mem_cons, List.not_mem_nil, or_false] at hp
      rcases hp with rfl | rfl | rfl | rfl <;> simp [list4]
    · simp only [List.mem_cons, List.not_mem_nil, or_false] at hq
      rcases hq with rfl | rfl | rfl | rfl <;> simp [list4]

theorem Spec.FlipStep.tetConn {m m' : Mesh P V T} (hm : ConsistentT m) (h : FlipStep m m') {z : VId}
    (hc : TetConn m z) : TetConn m' z := by
  cases h with
  | @flip14 k v ws nT nE live exists_ new hT hE roomT roomE flip =>
    obtain ⟨t, ht⟩ := Option.isSome_iff_exists.1 live
    have hw : m.tet4 (Mesh.walkerFromTetId k) = some (t.tet 3) := Mesh.tet4_iff.2 ⟨t, ht, rfl⟩
    have := size_of_numTets hm hT
    have := size_of_numEdges hm hE
    obtain ⟨m'', i1, i2, i3, h1, -, -, F, -⟩ := flip14_sem hm (a := t.first 3) (b := t.second 3)
      (c := t.third 3) (d := t.fourth 3) hw rfl (Option.ne_none_iff_exists'.1 exists_)
      (fun x hx => new ⟨x, hx⟩) (by omega) (by omega)
    rw [flip] at h1
    obtain ⟨rfl, -⟩ := Prod.mk.inj (Option.some.inj h1)
    have hv : v ∉ [t.first 3, t.second 3, t.third 3, t.fourth 3] := fun h =>
      new (inMesh_iff.2 ⟨_, ⟨_, hw⟩, h⟩)
    refine F.rep.tetConn (share14 hv) ?_ ?_ ?_ hc
    · intro p hp hz
      rw [List.mem_singleton] at hp
      subst hp
      obtain ⟨q, hq, h, -⟩ := flip_pairs14 (v := v) hz hz
      exact ⟨q, hq, h⟩
    · intro p hp hz u hu _
      rw [List.mem_singleton] at hp
      subst hp
      exact .inl (flip_pairs14 hz hu)
    · rintro ⟨p, hp, hz⟩
      by_cases hzv : z = v
      · right
        intro q hq hzq
        exact new (hzv ▸ inMesh_iff.2 ⟨q, hq, hzq⟩)
      · left
        refine ⟨_, List.mem_singleton_self _, ?_⟩
        simp only [List.mem_cons, List.not_mem_nil, or_false] at hp
        rcases hp with rfl | rfl | rfl | rfl <;> simp [list4, hzv] at hz ⊢ <;> tauto
  | @flip23 w o d e ws nT nE adj top bottom ne no_edge hT hE roomT roomE flip =>
    have hw : ∃ a b c, m.tet4 w = some (a, b, c, d) := by
      simp only [Mesh.fourth, Option.map_eq_some_iff] at top
      obtain ⟨t, h1, h2⟩ := top
      exact ⟨_, _, _, Mesh.tet4_iff.2 ⟨t, h1, by rw [Tet.tet, h2]⟩⟩
    obtain ⟨a, b, c, hw⟩ := hw
    have := size_of_numTets hm hT
    have := size_of_numEdges hm hE
    obtain ⟨m'', i2, h1, -, -, -, -, F, -⟩ := flip23_sem hm hw adj bottom ne no_edge (by omega) (by omega)
    rw [flip] at h1
    obtain ⟨rfl, -⟩ := Prod.mk.inj (Option.some.inj h1)
    refine F.rep.tetConn (share_of_edge ne (by simp [list4]) z) ?_ ?_ ?_ hc
    · intro p hp hz
      obtain ⟨q, hq, h, -⟩ := flip_pairs23 hp hz hz
      exact ⟨q, hq, h⟩
    · intro p hp hz u hu _
      exact .inl (flip_pairs23 hp hz hu)
    · rintro ⟨p, hp, hz⟩
      left
      simp only [List.mem_cons, List.not_mem_nil, or_false] at hp
      rcases hp with rfl | rfl | rfl <;> simp [list4] at hz ⊢ <;> tauto
  | @flip32 w o1 o2 x y c d e ws tet s1 s2 s3 third no_tri flip =>
    obtain ⟨m'', h1, -, -, -, t1, t2, F, -⟩ := flip32_sem hm tet s1 s2 s3 third no_tri
    rw [flip] at h1
    obtain ⟨rfl, -⟩ := Prod.mk.inj (Option.some.inj h1)
    have hold : ∀ q, HasTet m q → x ∈ list4 q → y ∈ list4 q →
        ∃ p ∈ [(x, y, c, d), (x, y, d, e), (x, y, e, c)], SameTet p q := by
      refine hm.edge_old (R := [w, o1, o2]) (tet4_parts tet).2.2.1 (by simp) ?_ ?_ ?_
      · simp [s1, s2, s3]
      · intro a ha
        simp only [List.mem_cons, List.not_mem_nil, or_false] at ha
        rcases ha with rfl | rfl | rfl
        exacts [⟨o2, by simp, s3⟩, ⟨w, by simp, s1⟩, ⟨o1, by simp, s2⟩]
      · simp [tet, t1, t2]
    refine F.rep.tetConn (share_of_edge (s := d) (t := c) (hm.ne4 tet).2.2.2.2.2.symm (by simp [list4]) z) ?_ ?_ ?_ hc
    · intro p hp hz
      simp only [List.mem_cons, List.not_mem_nil, or_false] at hp
      rcases hp with rfl | rfl | rfl <;> simp [list4] at hz ⊢ <;> tauto
    · intro p hp hz u hu hne
      rcases flip_pairs32 hp hz hu hne with h | ⟨rfl, rfl⟩ | ⟨rfl, rfl⟩
      · exact .inl h
      · exact .inr hold
      · exact .inr fun q a b c => hold q a c b
    · rintro ⟨p, hp, hz⟩
      left
      simp only [List.mem_cons, List.not_mem_nil, or_false] at hp
      rcases hp with rfl | rfl <;> simp [list4] at hz ⊢ <;> tauto
  | @flip44 w a1 a2 a3 x y p q r s ws nT nE tet s1 s2 s3 s4 ne third fourth no_edge hT hE roomT roomE flip =>
    have := size_of_numTets hm hT
    have := size_of_numEdges hm hE
    obtain ⟨m'', i2, h1, -, -, F, h7, -⟩ := flip44_sem hm tet s1 s2 s3 s4 ne third fourth
      no_edge (by omega) (by omega)
    rw [flip] at h1
    obtain ⟨rfl, -⟩ := Prod.mk.inj (Option.some.inj h1)
    obtain ⟨r', g1⟩ := hm.ring_tet4 tet s1
    obtain rfl : r = r' := by have := (tet4_parts g1).2.1; rw [third] at this; simpa using this
    obtain ⟨s', g2⟩ := hm.ring_tet4 g1 s2
    obtain rfl : s = s' := by have := (tet4_parts g2).2.1; rw [fourth] at this; simpa using this
    obtain ⟨p', g3⟩ := hm.ring_tet4 g2 s3
    obtain ⟨q', g4⟩ := hm.ring_tet4 g3 s4
    rw [tet] at g4
    obtain ⟨rfl, rfl⟩ : p = p' ∧ q = q' := by simpa using g4
    have hold : ∀ z, HasTet m z → x ∈ list4 z → y ∈ list4 z →
        ∃ o ∈ [(x, y, p, q), (x, y, q, r), (x, y, r, s), (x, y, s, p)], SameTet o z := by
      refine hm.edge_old (R := [w, a1, a2, a3]) (tet4_parts tet).2.2.1 (by simp) ?_ ?_ ?_
      · simp [s1, s2, s3, s4]
      · intro a ha
        simp only [List.mem_cons, List.not_mem_nil, or_false] at ha
        rcases ha with rfl | rfl | rfl | rfl
        exacts [⟨a3, by simp, s4⟩, ⟨w, by simp, s1⟩, ⟨a1, by simp, s2⟩, ⟨a2, by simp, s3⟩]
      · simp [tet, g1, g2, g3]
    have hrp : r ≠ p := (F.cons.ne4 h7).1
    refine F.rep.tetConn (share_of_edge hrp (by simp [list4]) z) ?_ ?_ ?_ hc
    · intro p hp hz
      exact flip_mem44.1 ⟨p, hp, hz⟩
    · intro p hp hz u hu hne
      rcases flip_pairs44 hp hz hu hne with h | ⟨rfl, rfl⟩ | ⟨rfl, rfl⟩
      · exact .inl h
      · exact .inr hold
      · exact .inr fun q a b c => hold q a c b
    · intro h
      exact .inl (flip_mem44.2 h)

/-- In a mesh with five vertices everything is connected. -/
theorem tetConn_five {m : Mesh P V T} {a b c d g : VId} (hd : [a, b, c, d, g].Nodup)
    (h : ∀ q, HasTet m q ↔ ∃ p ∈ [(a, b, c, d), (b, c, d, g), (a, d, c, g), (d, a, b, g), (c, b, a, g)],
      SameTet p q) (x : VId) : TetConn m x := by
  intro p q hp hq xp xq
  refine .single ⟨hp, hq, xp, xq, ?_⟩
  obtain ⟨p0, hp0, sp⟩ := (h p).1 hp
  obtain ⟨q0, hq0, sq⟩ := (h q).1 hq
  have : ∃ u, u ≠ x ∧ u ∈ list4 p0 ∧ u ∈ list4 q0 := by
    simp only [List.nodup_cons, List.mem_cons, List.not_mem_nil, or_false, not_or] at hd
    obtain ⟨⟨h1, h2, h3, h4⟩, ⟨h5, h6, h7⟩, ⟨h8, h9⟩, h10, -⟩ := hd
    have two : ∀ s t : VId, s ≠ t → s ∈ list4 p0 → t ∈ list4 p0 → s ∈ list4 q0 → t ∈ list4 q0 →
        ∃ u, u ≠ x ∧ u ∈ list4 p0 ∧ u ∈ list4 q0 := by
      intro s t hst a1 a2 a3 a4
      by_cases hx : s = x
      · exact ⟨t, fun h => hst (hx.trans h.symm), a2, a4⟩
      · exact ⟨s, hx, a1, a3⟩
    simp only [List.mem_cons, List.not_mem_nil, or_false] at hp0 hq0
    rcases hp0 with rfl | rfl | rfl | rfl | rfl <;> rcases hq0 with rfl | rfl | rfl | rfl | rfl <;>
      first
        | (refine two a b h1 ?_ ?_ ?_ ?_ <;> simp [list4] <;> done)
        | (refine two a c h2 ?_ ?_ ?_ ?_ <;> simp [list4] <;> done)
        | (refine two a d h3 ?_ ?_ ?_ ?_ <;> simp [list4] <;> done)
        | (refine two b c h5 ?_ ?_ ?_ ?_ <;> simp [list4] <;> done)
        | (refine two b d h6 ?_ ?_ ?_ ?_ <;> simp [list4] <;> done)
        | (refine two c d h8 ?_ ?_ ?_ ?_ <;> simp [list4] <;> done)
  obtain ⟨u, hu, hup, huq⟩ := this
  exact ⟨u, hu, (SameTet.mem sp u).1 hup, (SameTet.mem sq u).1 huq⟩

end Tet
