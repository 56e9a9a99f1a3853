import Verif.Proofs.Cones

/-!
# Sets of tets whose cones cover the half space once, and what flips do to them
-/

namespace Tet
open Spec
variable {K : Type} [Field K] [LinearOrder K] [IsStrictOrderedRing K]

namespace Vec4

omit [IsStrictOrderedRing K] in
theorem inCone_rot {a b c d x : Vec4 K} : InCone a b c d x ↔ InCone a c d b x := by
  unfold InCone
  rw [show det b d c x = det c b d x by simp only [det, det3]; ring, show det a d b x = det a d b x from rfl]
  constructor
  · rintro ⟨h1, h2, h3, h4⟩
    exact ⟨h3, h1, h2, h4⟩
  · rintro ⟨h1, h2, h3, h4⟩
    exact ⟨h2, h3, h1, h4⟩

omit [LinearOrder K] [IsStrictOrderedRing K] in
theorem det_flip (a b c d : Vec4 K) : det b a d c = det a b c d := by simp only [det, det3]; ring

omit [LinearOrder K] [IsStrictOrderedRing K] in
theorem det_rot (a b c d : Vec4 K) : det a c d b = det a b c d := by simp only [det, det3]; ring

end Vec4

open Vec4

/-- Twice, eight times, ... the volume. -/
def D (h : VId → Vec4 K) (q : V4) : K := det (h q.1) (h q.2.1) (h q.2.2.1) (h q.2.2.2)

/-- The face of the tet without its last vertex. -/
def F (h : VId → Vec4 K) (q : V4) : Vec4 K →ₗ[K] K := fun3 (h q.1) (h q.2.1) (h q.2.2.1)

def Cell (h : VId → Vec4 K) (q : V4) (x : Vec4 K) : Prop := InCone (h q.1) (h q.2.1) (h q.2.2.1) (h q.2.2.2) x

/-- Generators of the even orders. -/
theorem sameTet_cases {R : V4 → Prop} (flip : ∀ a b c d, R (a, b, c, d) → R (b, a, d, c))
    (rot : ∀ a b c d, R (a, b, c, d) → R (a, c, d, b)) {p q : V4} (h : SameTet p q) (hp : R p) : R q := by
  obtain ⟨a, b, c, d⟩ := p
  rw [← mem_twelve] at h
  simp only [twelve, List.mem_cons, List.not_mem_nil, or_false] at h
  have h1 := rot _ _ _ _ hp
  have h2 := rot _ _ _ _ h1
  have f0 := flip _ _ _ _ hp
  have f1 := flip _ _ _ _ h1
  have f2 := flip _ _ _ _ h2
  rcases h with rfl | rfl | rfl | rfl | rfl | rfl | rfl | rfl | rfl | rfl | rfl | rfl
  · exact rot _ _ _ _ f2
  · exact rot _ _ _ _ (rot _ _ _ _ f1)
  · exact f0
  · exact hp
  · exact rot _ _ _ _ f1
  · exact f2
  · exact h2
  · exact rot _ _ _ _ (rot _ _ _ _ f0)
  · exact rot _ _ _ _ f0
  · exact h1
  · exact flip _ _ _ _ (rot _ _ _ _ f0)
  · exact f1

omit [LinearOrder K] [IsStrictOrderedRing K] in
theorem D_same {h : VId → Vec4 K} {p q : V4} (hs : SameTet p q) : D h q = D h p :=
  sameTet_cases (R := fun q => D h q = D h p) (fun a b c d e => by rw [← e]; exact det_flip ..)
    (fun a b c d e => by rw [← e]; exact det_rot ..) hs rfl

omit [IsStrictOrderedRing K] in
theorem Cell_same {h : VId → Vec4 K} {p q : V4} {x : Vec4 K} (hs : SameTet p q) : Cell h q x ↔ Cell h p x :=
  sameTet_cases (R := fun q => Cell h q x ↔ Cell h p x) (fun a b c d e => by rw [← e]; exact inCone_flip.symm)
    (fun a b c d e => by rw [← e]; exact inCone_rot.symm) hs Iff.rfl

omit [IsStrictOrderedRing K] in
/-- A cone is where all its faces are positive. -/
theorem Cell_iff {h : VId → Vec4 K} {p : V4} {x : Vec4 K} : Cell h p x ↔ ∀ q, SameTet p q → 0 < F h q x := by
  constructor
  · intro hx q hs
    exact ((Cell_same hs).2 hx).1
  · obtain ⟨a, b, c, d⟩ := p
    intro hx
    have k (q : V4) (hq : q ∈ twelve (a, b, c, d)) := hx q (mem_twelve.1 hq)
    exact ⟨k (a, b, c, d) (by simp [twelve]), k (a, d, b, c) (by simp [twelve]), k (a, c, d, b) (by simp [twelve]),
      k (b, d, c, a) (by simp [twelve])⟩

omit [LinearOrder K] [IsStrictOrderedRing K] in
theorem F_ne {h : VId → Vec4 K} {q : V4} (hq : D h q ≠ 0) : F h q ≠ 0 := by
  intro h0
  exact hq (by
    have := congrArg (· (h q.2.2.2)) h0
    exact this)

/-- In the plane of no triangle. -/
def Free (h : VId → Vec4 K) (S : V4 → Prop) (x : Vec4 K) : Prop := ∀ q, S q → F h q x ≠ 0

/-- The cones of the tets cover the half space once. -/
structure Fan (h : VId → Vec4 K) (wt : Vec4 K →ₗ[K] K) (S : V4 → Prop) : Prop where
  closed : ∀ p q, S p → SameTet p q → S q
  fin : {q | S q}.Finite
  pos : ∀ q, S q → 0 < D h q
  once : ∀ x, 0 < wt x → Free h S x → ∃ q, S q ∧ Cell h q x ∧ ∀ q', S q' → Cell h q' x → SameTet q q'

variable {h : VId → Vec4 K} {wt : Vec4 K →ₗ[K] K} {S S' : V4 → Prop}

/-- There are vectors in no plane of a triangle close to any vector. -/
theorem near_free {G : List (Vec4 K →ₗ[K] K)} (fin : {q | S q}.Finite) (pos : ∀ q, S q → 0 < D h q) {y z : Vec4 K}
    (hG : ∀ g ∈ G, 0 < g y ∨ g y = 0 ∧ 0 < g z) : ∃ x, Free h S x ∧ ∀ g ∈ G, 0 < g x := by
  obtain ⟨x, h1, h2⟩ := near_small (fin.toFinset.toList.map (F h)) G y z (by
    intro f hf
    obtain ⟨q, hq, rfl⟩ := List.mem_map.1 hf
    exact F_ne (pos q (by simpa using hq)).ne') hG
  exact ⟨x, fun q hq => h1 _ (List.mem_map.2 ⟨q, by simpa using hq, rfl⟩), h2⟩

/-- Replacing tets by others that fill the same space. -/
theorem Fan.replace (hf : Fan h wt S) {old new : List V4} (hold : ∀ p ∈ old, S p)
    (hS : ∀ q, S' q ↔ (S q ∧ ∀ p ∈ old, ¬ SameTet p q) ∨ ∃ p ∈ new, SameTet p q) (hnew : ∀ p ∈ new, 0 < D h p)
    (hex : ∀ p ∈ new, ∀ p' ∈ new, ∀ x, Cell h p x → Cell h p' x → p = p')
    (hfill : ∀ x, Free h S x → Free h S' x → ((∃ p ∈ old, Cell h p x) ↔ ∃ p ∈ new, Cell h p x)) : Fan h wt S' := by
  have closed : ∀ p q, S' p → SameTet p q → S' q := by
    intro p q hp hs
    rw [hS] at hp ⊢
    rcases hp with ⟨h1, h2⟩ | ⟨p', h1, h2⟩
    · exact .inl ⟨hf.closed _ _ h1 hs, fun p' hp' hs' => h2 p' hp' (SameTet.trans' hs' (SameTet.symm' hs))⟩
    · exact .inr ⟨p', h1, SameTet.trans' h2 hs⟩
  have fin : {q | S' q}.Finite := by
    refine (hf.fin.union (full new).toFinset.finite_toSet).subset ?_
    intro q hq
    rcases (hS q).1 hq with ⟨h1, h2⟩ | h1
    · exact .inl h1
    · exact .inr (by simpa using mem_full.2 h1)
  have pos : ∀ q, S' q → 0 < D h q := by
    intro q hq
    rcases (hS q).1 hq with ⟨h1, h2⟩ | ⟨p, h1, h2⟩
    · exact hf.pos q h1
    · rw [D_same h2]
      exact hnew p h1
  refine ⟨closed, fin, pos, fun x hx hfree => ?_⟩
  obtain ⟨y, h1, h2⟩ := near_free (h := h) (G := wt :: fin.toFinset.toList.map fun q => if 0 < F h q x then F h q else -F h q)
    hf.fin hf.pos (y := x) (z := 0) (by
      intro g hg
      rcases List.mem_cons.1 hg with rfl | hg
      · exact .inl hx
      · obtain ⟨q, hq, rfl⟩ := List.mem_map.1 hg
        left
        split_ifs with h0
        · exact h0
        · rw [LinearMap.neg_apply, neg_pos]
          exact lt_of_le_of_ne (not_lt.1 h0) (hfree q (by simpa using hq)))
  have hw : 0 < wt y := h2 _ (List.mem_cons_self ..)
  have hsign : ∀ q, S' q → F h q y ≠ 0 ∧ (0 < F h q y ↔ 0 < F h q x) := by
    intro q hq
    have := h2 (if 0 < F h q x then F h q else -F h q) (List.mem_cons_of_mem _ (List.mem_map.2 ⟨q, by simpa using hq, rfl⟩))
    split_ifs at this with h0
    · exact ⟨this.ne', fun _ => h0, fun _ => this⟩
    · rw [LinearMap.neg_apply, neg_pos] at this
      exact ⟨this.ne, fun h => absurd h this.not_gt, fun h => absurd h h0⟩
  have hcell : ∀ q, S' q → (Cell h q y ↔ Cell h q x) := by
    intro q hq
    rw [Cell_iff, Cell_iff]
    exact forall_congr' fun r => imp_congr_right fun hr => (hsign r (closed _ _ hq hr)).2
  suffices hs : ∃ q, S' q ∧ Cell h q y ∧ ∀ q', S' q' → Cell h q' y → SameTet q q' by
    obtain ⟨q, k1, k2, k3⟩ := hs
    exact ⟨q, k1, (hcell q k1).1 k2, fun q' hq' hc => k3 q' hq' ((hcell q' hq').2 hc)⟩
  have hfill := hfill y h1 fun q hq => (hsign q hq).1
  obtain ⟨q0, g1, g2, g3⟩ := hf.once y hw h1
  by_cases hp : ∃ p ∈ old, Cell h p y
  · obtain ⟨n, n1, n2⟩ := hfill.1 hp
    obtain ⟨p, p1, p2⟩ := hp
    refine ⟨n, (hS n).2 (.inr ⟨n, n1, EvenRearr.refl _⟩), n2, fun q' hq' hc => ?_⟩
    rcases (hS q').1 hq' with ⟨k1, k2⟩ | ⟨p', k1, k2⟩
    · exact absurd (SameTet.trans' (SameTet.symm' (g3 p (hold p p1) p2)) (g3 q' k1 hc)) (k2 p p1)
    · rw [hex n n1 p' k1 y n2 ((Cell_same k2).1 hc)]
      exact k2
  · refine ⟨q0, (hS q0).2 (.inl ⟨g1, fun p hp' hs => hp ⟨p, hp', (Cell_same hs).1 g2⟩⟩), g2, fun q' hq' hc => ?_⟩
    rcases (hS q').1 hq' with ⟨k1, k2⟩ | ⟨p', k1, k2⟩
    · exact g3 q' k1 hc
    · exact absurd (hfill.2 ⟨p', k1, (Cell_same k2).1 hc⟩) hp

end Tet
