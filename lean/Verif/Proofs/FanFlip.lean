import Verif.Proofs.Fan

/-!
# Flips of tets whose cones cover the half space once
-/

namespace Tet
open Spec Vec4
variable {K : Type} [Field K] [LinearOrder K] [IsStrictOrderedRing K]
variable {h : VId → Vec4 K} {wt : Vec4 K →ₗ[K] K} {S S' : V4 → Prop}

omit [LinearOrder K] [IsStrictOrderedRing K] in
theorem D_nodup {a b c d : VId} (hd : D h (a, b, c, d) ≠ 0) : a ≠ b ∧ a ≠ c ∧ a ≠ d ∧ b ≠ c ∧ b ≠ d ∧ c ≠ d := by
  refine ⟨?_, ?_, ?_, ?_, ?_, ?_⟩ <;> rintro rfl <;> apply hd <;> simp only [D, det, det3] <;> ring

omit [IsStrictOrderedRing K] in
theorem Free.four {x : Vec4 K} (hx : Free h S x) (closed : ∀ p q, S p → SameTet p q → S q) {a b c d : VId}
    (hs : S (a, b, c, d)) : det (h a) (h b) (h c) x ≠ 0 ∧ det (h a) (h b) (h d) x ≠ 0 ∧ det (h a) (h c) (h d) x ≠ 0 ∧
      det (h b) (h c) (h d) x ≠ 0 := by
  have k (q : V4) (hq : q ∈ twelve (a, b, c, d)) : F h q x ≠ 0 := hx q (closed _ _ hs (mem_twelve.1 hq))
  refine ⟨k (a, b, c, d) (by simp [twelve]), ?_, k (a, c, d, b) (by simp [twelve]), ?_⟩
  · have : det (h a) (h d) (h b) x ≠ 0 := k (a, d, b, c) (by simp [twelve])
    intro h0
    exact this (by rw [swap1, h0, neg_zero])
  · have : det (h b) (h d) (h c) x ≠ 0 := k (b, d, c, a) (by simp [twelve])
    intro h0
    exact this (by rw [swap1, h0, neg_zero])

omit [LinearOrder K] [IsStrictOrderedRing K] in
theorem ne_swap0 {a b c x : Vec4 K} (hn : det a b c x ≠ 0) : det b a c x ≠ 0 := by rw [swap0]; exact neg_ne_zero.2 hn

omit [LinearOrder K] [IsStrictOrderedRing K] in
theorem ne_bca {a b c x : Vec4 K} (hn : det a b c x ≠ 0) : det b c a x ≠ 0 := by
  rw [show det b c a x = det a b c x by simp only [det, det3]; ring]
  exact hn

omit [LinearOrder K] [IsStrictOrderedRing K] in
theorem ne_cab {a b c x : Vec4 K} (hn : det a b c x ≠ 0) : det c a b x ≠ 0 := by
  rw [show det c a b x = det a b c x by simp only [det, det3]; ring]
  exact hn

omit [LinearOrder K] [IsStrictOrderedRing K] in
theorem ne_acb {a b c x : Vec4 K} (hn : det a b c x ≠ 0) : det a c b x ≠ 0 := by
  rw [show det a c b x = -det a b c x by simp only [det, det3]; ring]
  exact neg_ne_zero.2 hn

omit [LinearOrder K] [IsStrictOrderedRing K] in
theorem ne_cba {a b c x : Vec4 K} (hn : det a b c x ≠ 0) : det c b a x ≠ 0 := by
  rw [show det c b a x = -det a b c x by simp only [det, det3]; ring]
  exact neg_ne_zero.2 hn

/-- Tets on both sides of a triangle. -/
theorem beside {p q : V4} {a b c d e : VId} (hp : SameTet p (a, b, c, d)) (hq : SameTet q (b, a, c, e)) {x : Vec4 K}
    (h1 : Cell h p x) (h2 : Cell h q x) : False := by
  have k1 : 0 < det (h a) (h b) (h c) x := Cell_iff.1 h1 _ hp
  have k2 : 0 < det (h b) (h a) (h c) x := Cell_iff.1 h2 _ hq
  rw [swap0] at k2
  linarith

/-- The vectors with some property for all vertices but the ghost. -/
def Solids (h : VId → Vec4 K) (wt : Vec4 K →ₗ[K] K) : Prop := ∀ v, v ≠ GHOST → 0 < wt (h v)

theorem Fan.flip23 (hf : Fan h wt S) {a b c d e : VId} (h1 : S (a, b, c, d)) (h2 : S (b, a, c, e))
    (hS : ∀ q, S' q ↔ (S q ∧ ∀ p ∈ [(a, b, c, d), (b, a, c, e)], ¬ SameTet p q) ∨
      ∃ p ∈ [(b, a, d, e), (a, c, d, e), (c, b, d, e)], SameTet p q)
    (hn : ∀ q ∈ [(b, a, d, e), (a, c, d, e), (c, b, d, e)], 0 < D h q) : Fan h wt S' := by
  have closed : ∀ p q, S' p → SameTet p q → S' q := by
    intro p q hp hs
    rw [hS] at hp ⊢
    rcases hp with ⟨h1, h2⟩ | ⟨p', h1, h2⟩
    · exact .inl ⟨hf.closed _ _ h1 hs, fun p' hp' hs' => h2 p' hp' (SameTet.trans' hs' (SameTet.symm' hs))⟩
    · exact .inr ⟨p', h1, SameTet.trans' h2 hs⟩
  refine hf.replace (by simp [h1, h2]) hS hn ?_ ?_
  · have t (p q : V4) (hq : q ∈ twelve p) : SameTet p q := mem_twelve.1 hq
    intro p hp p' hp' x hx hx'
    simp only [List.mem_cons, List.not_mem_nil, or_false] at hp hp'
    rcases hp with rfl | rfl | rfl <;> rcases hp' with rfl | rfl | rfl
    · rfl
    · exact (beside (t _ (d, a, e, b) (by simp [twelve])) (t _ (a, d, e, c) (by simp [twelve])) hx hx').elim
    · exact (beside (t _ (b, d, e, a) (by simp [twelve])) (t _ (d, b, e, c) (by simp [twelve])) hx hx').elim
    · exact (beside (t _ (a, d, e, c) (by simp [twelve])) (t _ (d, a, e, b) (by simp [twelve])) hx hx').elim
    · rfl
    · exact (beside (t _ (d, c, e, a) (by simp [twelve])) (t _ (c, d, e, b) (by simp [twelve])) hx hx').elim
    · exact (beside (t _ (d, b, e, c) (by simp [twelve])) (t _ (b, d, e, a) (by simp [twelve])) hx hx').elim
    · exact (beside (t _ (c, d, e, b) (by simp [twelve])) (t _ (d, c, e, a) (by simp [twelve])) hx hx').elim
    · rfl
  · intro x hx hx'
    have n1 : S' (b, a, d, e) := (hS _).2 (.inr ⟨_, by simp, EvenRearr.refl _⟩)
    have n2 : S' (a, c, d, e) := (hS _).2 (.inr ⟨_, by simp, EvenRearr.refl _⟩)
    have n3 : S' (c, b, d, e) := (hS _).2 (.inr ⟨_, by simp, EvenRearr.refl _⟩)
    obtain ⟨f1, f2, f3, f4⟩ := hx.four hf.closed h1
    obtain ⟨-, f5, f6, f7⟩ := hx.four hf.closed h2
    obtain ⟨-, -, f8, f9⟩ := hx'.four closed n1
    obtain ⟨-, -, -, f10⟩ := hx'.four closed n2
    have : (Cell h (a, b, c, d) x ∨ Cell h (b, a, c, e) x) ↔
        (Cell h (b, a, d, e) x ∨ Cell h (a, c, d, e) x ∨ Cell h (c, b, d, e) x) := cones23 (x := x)
      ⟨f1, f2, ne_swap0 f5, f3, f7, f9, f4, f6, f8, f10⟩ (hf.pos _ h1) (hf.pos _ h2) (hn (b, a, d, e) (by simp))
      (hn (a, c, d, e) (by simp)) (hn (c, b, d, e) (by simp))
    simpa only [List.mem_cons, List.not_mem_nil, or_false, exists_eq_or_imp, exists_eq_left] using this

theorem fill32 (hf : Fan h wt S) {x y c d e : VId} (h1 : S (x, y, c, d)) (h2 : S (x, y, d, e)) (h3 : S (x, y, e, c))
    (n1 : 0 < D h (d, c, e, x)) (n2 : 0 < D h (c, d, e, y)) {v : Vec4 K} (hx : Free h S v)
    (hdce : det (h d) (h c) (h e) v ≠ 0) : (Cell h (x, y, c, d) v ∨ Cell h (x, y, d, e) v ∨ Cell h (x, y, e, c) v) ↔
      (Cell h (d, c, e, x) v ∨ Cell h (c, d, e, y) v) := by
  obtain ⟨f1, f2, f3, f4⟩ := hx.four hf.closed h1
  obtain ⟨-, f5, f6, f7⟩ := hx.four hf.closed h2
  obtain ⟨-, -, f8, f9⟩ := hx.four hf.closed h3
  have t (p q : V4) (hq : q ∈ twelve p) : SameTet p q := mem_twelve.1 hq
  have := cones23 (a := h d) (b := h c) (c := h e) (d := h x) (e := h y) (x := v)
    ⟨hdce, ne_cba f3, ne_cba f4, ne_bca f6, ne_bca f7, ne_cab f2, ne_cba f8, ne_cba f9, ne_cab f1, ne_cab f5⟩
    n1 n2 (by have := hf.pos _ h1; rwa [← D_same (t _ (c, d, x, y) (by simp [twelve]))] at this) 
    (by have := hf.pos _ h2; rwa [← D_same (t _ (d, e, x, y) (by simp [twelve]))] at this)
    (by have := hf.pos _ h3; rwa [← D_same (t _ (e, c, x, y) (by simp [twelve]))] at this)
  rw [← Cell_same (t _ (c, d, x, y) (by simp [twelve])), ← Cell_same (t (x, y, d, e) (d, e, x, y) (by simp [twelve])),
    ← Cell_same (t (x, y, e, c) (e, c, x, y) (by simp [twelve]))]
  exact this.symm

theorem Fan.flip32 (hf : Fan h wt S) {x y c d e : VId} (h1 : S (x, y, c, d)) (h2 : S (x, y, d, e)) (h3 : S (x, y, e, c))
    (hS : ∀ q, S' q ↔ (S q ∧ ∀ p ∈ [(x, y, c, d), (x, y, d, e), (x, y, e, c)], ¬ SameTet p q) ∨
      ∃ p ∈ [(d, c, e, x), (c, d, e, y)], SameTet p q)
    (hn : ∀ q ∈ [(d, c, e, x), (c, d, e, y)], 0 < D h q) : Fan h wt S' := by
  have closed : ∀ p q, S' p → SameTet p q → S' q := by
    intro p q hp hs
    rw [hS] at hp ⊢
    rcases hp with ⟨h1, h2⟩ | ⟨p', h1, h2⟩
    · exact .inl ⟨hf.closed _ _ h1 hs, fun p' hp' hs' => h2 p' hp' (SameTet.trans' hs' (SameTet.symm' hs))⟩
    · exact .inr ⟨p', h1, SameTet.trans' h2 hs⟩
  refine hf.replace (by simp [h1, h2, h3]) hS hn ?_ ?_
  · intro p hp p' hp' v hx hx'
    simp only [List.mem_cons, List.not_mem_nil, or_false] at hp hp'
    rcases hp with rfl | rfl <;> rcases hp' with rfl | rfl
    · rfl
    · exact (beside (EvenRearr.refl _) (EvenRearr.refl _) hx hx').elim
    · exact (beside (EvenRearr.refl _) (EvenRearr.refl _) hx hx').elim
    · rfl
  · intro v hx hx'
    have n1 : S' (d, c, e, x) := (hS _).2 (.inr ⟨_, by simp, EvenRearr.refl _⟩)
    have := fill32 hf h1 h2 h3 (hn _ (by simp)) (hn _ (by simp)) hx (hx'.four closed n1).1
    simpa only [List.mem_cons, List.not_mem_nil, or_false, exists_eq_or_imp, exists_eq_left] using this

theorem fill44 (hf : Fan h wt S) {x y p q r s : VId} (h1 : S (x, y, p, q)) (h2 : S (x, y, q, r)) (h3 : S (x, y, r, s))
    (h4 : S (x, y, s, p)) (n1 : 0 < D h (r, p, q, y)) (n2 : 0 < D h (r, p, y, s)) (n3 : 0 < D h (r, p, s, x))
    (n4 : 0 < D h (r, p, x, q)) {v : Vec4 K} (hx : Free h S v) (g1 : det (h r) (h p) (h q) v ≠ 0)
    (g2 : det (h r) (h p) (h y) v ≠ 0) (g3 : det (h r) (h p) (h s) v ≠ 0) (g4 : det (h r) (h p) (h x) v ≠ 0) :
    (Cell h (x, y, p, q) v ∨ Cell h (x, y, q, r) v ∨ Cell h (x, y, r, s) v ∨ Cell h (x, y, s, p) v) ↔
      (Cell h (r, p, q, y) v ∨ Cell h (r, p, y, s) v ∨ Cell h (r, p, s, x) v ∨ Cell h (r, p, x, q) v) := by
  obtain ⟨f1, f2, f3, f4⟩ := hx.four hf.closed h1
  obtain ⟨-, f5, f6, f7⟩ := hx.four hf.closed h2
  obtain ⟨-, f8, f9, f10⟩ := hx.four hf.closed h3
  obtain ⟨-, -, f11, f12⟩ := hx.four hf.closed h4
  have t (p q : V4) (hq : q ∈ twelve p) : SameTet p q := mem_twelve.1 hq
  have u (p q : V4) (hp : 0 < D h p) (hq : q ∈ twelve p) : 0 < D h q := by rwa [D_same (t p q hq)]
  have : (Cell h (y, x, q, p) v ∨ Cell h (x, y, q, r) v ∨ Cell h (y, x, s, r) v ∨ Cell h (x, y, s, p) v) ↔
      (Cell h (y, q, p, r) v ∨ Cell h (y, s, r, p) v ∨ Cell h (s, x, r, p) v ∨ Cell h (q, x, p, r) v) := cones44
    ⟨ne_swap0 f2, ne_swap0 f1, ne_swap0 f5, ne_acb f4, f7, ne_cba g2, ne_acb f3, f6, ne_cba g4, ne_cba g1⟩
    ⟨ne_swap0 f8, ne_swap0 f5, ne_swap0 f1, ne_acb f10, f12, ne_cab g2, ne_acb f9, f11, ne_cab g4, ne_cab g3⟩
    (u _ (y, x, q, p) (hf.pos _ h1) (by simp [twelve])) (hf.pos _ h2) (u _ (y, x, s, r) (hf.pos _ h3) (by simp [twelve]))
    (hf.pos _ h4) (u _ (y, q, p, r) n1 (by simp [twelve])) (u _ (y, s, r, p) n2 (by simp [twelve]))
    (u _ (s, x, r, p) n3 (by simp [twelve])) (u _ (q, x, p, r) n4 (by simp [twelve]))
  rwa [Cell_same (t (x, y, p, q) (y, x, q, p) (by simp [twelve])), Cell_same (t (x, y, r, s) (y, x, s, r) (by simp [twelve])),
    Cell_same (t (r, p, q, y) (y, q, p, r) (by simp [twelve])), Cell_same (t (r, p, y, s) (y, s, r, p) (by simp [twelve])),
    Cell_same (t (r, p, s, x) (s, x, r, p) (by simp [twelve])), Cell_same (t (r, p, x, q) (q, x, p, r) (by simp [twelve]))]
    at this

/-- Tets at an edge that are opposite to each other. -/
theorem opposite4 {r p q y s x : VId} (n1 : 0 < D h (r, p, q, y)) (n2 : 0 < D h (r, p, y, s)) (n3 : 0 < D h (r, p, s, x))
    (n4 : 0 < D h (r, p, x, q)) {v : Vec4 K} (h1 : Cell h (r, p, q, y) v) (h2 : Cell h (r, p, s, x) v) : False := by
  have g1 : 0 < det (h r) (h p) (h q) v := h1.1
  have g2 : 0 < det (h r) (h y) (h p) v := h1.2.1
  have g3 : 0 < det (h r) (h p) (h s) v := h2.1
  have g4 : 0 < det (h r) (h x) (h p) v := h2.2.1
  rw [swap1, neg_pos] at g2 g4
  have n1 : 0 < det (h r) (h p) (h q) (h y) := n1
  have n2 : 0 < det (h r) (h p) (h y) (h s) := n2
  have n3 : 0 < det (h r) (h p) (h s) (h x) := n3
  have n4 : 0 < det (h r) (h p) (h x) (h q) := n4
  generalize h r = r at *
  generalize h p = p at *
  generalize h q = q at *
  generalize h y = y at *
  generalize h s = s at *
  generalize h x = x at *
  have r1 : det r p q y * det r p s v + det r p y s * det r p q v = det r p q s * det r p y v := by
    simp only [det, det3]; ring
  have r2 : det r p s x * det r p q v + det r p x q * det r p s v = -det r p q s * det r p x v := by
    simp only [det, det3]; ring
  have m1 := mul_pos n1 g3
  have m2 := mul_pos n2 g1
  have m3 := mul_pos n3 g1
  have m4 := mul_pos n4 g3
  rcases le_total (det r p q s) 0 with hl | hl
  · have := mul_nonpos_of_nonneg_of_nonpos (neg_nonneg.2 hl) g4.le
    linarith
  · have := mul_nonpos_of_nonneg_of_nonpos hl g2.le
    linarith

theorem Fan.flip44 (hf : Fan h wt S) {x y p q r s : VId} (h1 : S (x, y, p, q)) (h2 : S (x, y, q, r)) (h3 : S (x, y, r, s))
    (h4 : S (x, y, s, p))
    (hS : ∀ t, S' t ↔ (S t ∧ ∀ o ∈ [(x, y, p, q), (x, y, q, r), (x, y, r, s), (x, y, s, p)], ¬ SameTet o t) ∨
      ∃ n ∈ [(r, p, q, y), (r, p, y, s), (r, p, s, x), (r, p, x, q)], SameTet n t)
    (hn : ∀ n ∈ [(r, p, q, y), (r, p, y, s), (r, p, s, x), (r, p, x, q)], 0 < D h n) : Fan h wt S' := by
  have n1 := hn (r, p, q, y) (by simp)
  have n2 := hn (r, p, y, s) (by simp)
  have n3 := hn (r, p, s, x) (by simp)
  have n4 := hn (r, p, x, q) (by simp)
  refine hf.replace (by simp [h1, h2, h3, h4]) hS hn ?_ ?_
  · have next : ∀ {a b c v}, Cell h (r, p, a, b) v → Cell h (r, p, b, c) v → False := by
      intro a b c v k1 k2
      exact beside (a := p) (b := r) (c := b) (d := a) (e := c) (mem_twelve.1 (by simp [twelve])) (EvenRearr.refl _) k1 k2
    intro o ho o' ho' v hx hx'
    simp only [List.mem_cons, List.not_mem_nil, or_false] at ho ho'
    rcases ho with rfl | rfl | rfl | rfl <;> rcases ho' with rfl | rfl | rfl | rfl
    · rfl
    · exact (next hx hx').elim
    · exact (opposite4 n1 n2 n3 n4 hx hx').elim
    · exact (next hx' hx).elim
    · exact (next hx' hx).elim
    · rfl
    · exact (next hx hx').elim
    · exact (opposite4 n2 n3 n4 n1 hx hx').elim
    · exact (opposite4 n1 n2 n3 n4 hx' hx).elim
    · exact (next hx' hx).elim
    · rfl
    · exact (next hx hx').elim
    · exact (next hx hx').elim
    · exact (opposite4 n2 n3 n4 n1 hx' hx).elim
    · exact (next hx' hx).elim
    · rfl
  · intro v hx hx'
    have g (n : V4) (h' : n ∈ [(r, p, q, y), (r, p, y, s), (r, p, s, x), (r, p, x, q)]) : F h n v ≠ 0 :=
      hx' n ((hS n).2 (.inr ⟨_, h', EvenRearr.refl _⟩))
    have := fill44 hf h1 h2 h3 h4 n1 n2 n3 n4 hx (g (r, p, q, y) (by simp)) (g (r, p, y, s) (by simp))
      (g (r, p, s, x) (by simp)) (g (r, p, x, q) (by simp))
    simpa only [List.mem_cons, List.not_mem_nil, or_false, exists_eq_or_imp, exists_eq_left] using this

end Tet
