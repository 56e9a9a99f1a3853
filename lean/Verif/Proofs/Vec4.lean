import Mathlib.Tactic.Ring
import Mathlib.Tactic.Linarith
import Mathlib.Tactic.FinCases
import Mathlib.Tactic.Module
import Mathlib.Data.Fintype.Basic
import Mathlib.Data.Fin.VecNotation
import Mathlib.Algebra.Module.Pi
import Mathlib.Algebra.Module.LinearMap.Defs
import Mathlib.Algebra.Order.Field.Basic
import Mathlib.Data.Finset.Max

/-!
# Vectors with four coordinates and the cones that they span
-/

namespace Tet
variable {K : Type} [Field K]

/-- Vectors with four coordinates. -/
abbrev Vec4 (K : Type) := Fin 4 → K

namespace Vec4

def det3 (i j k : Fin 4) (a b c : Vec4 K) : K :=
  a i * (b j * c k - b k * c j) - a j * (b i * c k - b k * c i) + a k * (b i * c j - b j * c i)

/-- The determinant of four vectors. -/
def det (a b c d : Vec4 K) : K :=
  a 0 * det3 1 2 3 b c d - a 1 * det3 0 2 3 b c d + a 2 * det3 0 1 3 b c d - a 3 * det3 0 1 2 b c d

theorem swap0 (a b c d : Vec4 K) : det b a c d = -det a b c d := by
  simp only [det, det3]; ring

theorem swap1 (a b c d : Vec4 K) : det a c b d = -det a b c d := by
  simp only [det, det3]; ring

theorem swap2 (a b c d : Vec4 K) : det a b d c = -det a b c d := by
  simp only [det, det3]; ring

theorem self0 (a b c : Vec4 K) : det a b c a = 0 := by
  simp only [det, det3]; ring

theorem self1 (a b c : Vec4 K) : det a b c b = 0 := by
  simp only [det, det3]; ring

theorem self2 (a b c : Vec4 K) : det a b c c = 0 := by
  simp only [det, det3]; ring

theorem det_add (a b c d e : Vec4 K) : det a b c (d + e) = det a b c d + det a b c e := by
  simp only [det, det3, Pi.add_apply]; ring

theorem det_smul (a b c d : Vec4 K) (k : K) : det a b c (k • d) = k * det a b c d := by
  simp only [det, det3, Pi.smul_apply, smul_eq_mul]; ring

theorem det_neg (a b c d : Vec4 K) : det a b c (-d) = -det a b c d := by
  simp only [det, det3, Pi.neg_apply]; ring

/-- The determinant as a linear function of the last vector. -/
def fun3 (a b c : Vec4 K) : Vec4 K →ₗ[K] K where
  toFun := det a b c
  map_add' := det_add a b c
  map_smul' k d := det_smul a b c d k

theorem fun3_apply (a b c d : Vec4 K) : fun3 a b c d = det a b c d := rfl

theorem cramer (a b c d y : Vec4 K) : det a b c d • y =
    det y b c d • a + det a y c d • b + det a b y d • c + det a b c y • d := by
  funext i
  have h0 : det a b c d * y 0 = det y b c d * a 0 + det a y c d * b 0 + det a b y d * c 0 + det a b c y * d 0 := by
    simp only [det, det3]; ring
  have h1 : det a b c d * y 1 = det y b c d * a 1 + det a y c d * b 1 + det a b y d * c 1 + det a b c y * d 1 := by
    simp only [det, det3]; ring
  have h2 : det a b c d * y 2 = det y b c d * a 2 + det a y c d * b 2 + det a b y d * c 2 + det a b c y * d 2 := by
    simp only [det, det3]; ring
  have h3 : det a b c d * y 3 = det y b c d * a 3 + det a y c d * b 3 + det a b y d * c 3 + det a b c y * d 3 := by
    simp only [det, det3]; ring
  match i with
  | 0 => exact h0
  | 1 => exact h1
  | 2 => exact h2
  | 3 => exact h3

/-- Four independent vectors are a basis. -/
theorem basis {a b c d : Vec4 K} (h : det a b c d ≠ 0) (y : Vec4 K) :
    ∃ ka kb kc kd : K, y = ka • a + kb • b + kc • c + kd • d := by
  refine ⟨(det a b c d)⁻¹ * det y b c d, (det a b c d)⁻¹ * det a y c d, (det a b c d)⁻¹ * det a b y d,
    (det a b c d)⁻¹ * det a b c y, ?_⟩
  simp only [mul_smul, ← smul_add]
  rw [← cramer, smul_smul, inv_mul_cancel₀ h, one_smul]

/-- The dependency of five vectors. -/
theorem five (a b c d e : Vec4 K) :
    det b c d e • a + det c a d e • b + det a b d e • c + det b a c e • d + det a b c d • e = 0 := by
  have := cramer a b c d e
  have h1 : det e b c d = -det b c d e := by simp only [det, det3]; ring
  have h2 : det a e c d = -det c a d e := by simp only [det, det3]; ring
  have h3 : det a b e d = -det a b d e := by simp only [det, det3]; ring
  have h4 : det a b c e = -det b a c e := by simp only [det, det3]; ring
  rw [h1, h2, h3, h4] at this
  rw [this]
  module

variable [LinearOrder K] [IsStrictOrderedRing K]

/-- The vector is strictly inside the cone of four positively oriented vectors. -/
def InCone (a b c d x : Vec4 K) : Prop := 0 < det a b c x ∧ 0 < det a d b x ∧ 0 < det a c d x ∧ 0 < det b d c x

/-- With a combination of five vectors, the coefficients of which may be changed along `l`: the smallest and the largest
change that gives a combination without negative coefficients exist both or not at all. -/
theorem ends {ι : Type} [Fintype ι] {c l : ι → K} (hg : ∀ i j, i ≠ j → c j * l i ≠ c i * l j) {i : ι} (hi : 0 < l i)
    (hE : ∀ j, j ≠ i → c i * l j < c j * l i) {k0 : ι} (hk0 : l k0 < 0) :
    ∃ k, l k < 0 ∧ ∀ j, j ≠ k → c j * l k < c k * l j := by
  classical
  obtain ⟨k, hk, hmin⟩ := (Finset.univ.filter fun k => l k < 0).exists_min_image (fun k => c k / -l k) ⟨k0, by simp [hk0]⟩
  simp only [Finset.mem_filter, Finset.mem_univ, true_and] at hk hmin
  refine ⟨k, hk, fun j hj => ?_⟩
  have hik : i ≠ k := fun e => by rw [e] at hi; linarith
  have h1 := hE k (Ne.symm hik)
  rcases lt_trichotomy (l j) 0 with h | h | h
  · have h2 := hmin j h
    rw [div_le_div_iff₀ (by linarith) (by linarith)] at h2
    have h3 := hg j k hj
    refine lt_of_le_of_ne (by linarith) fun e => h3 (by linarith)
  · have hji : j ≠ i := fun e => by rw [e] at h; linarith
    have h2 := hE j hji
    rw [h, mul_zero] at h2 ⊢
    have : 0 < c j := (pos_iff_pos_of_mul_pos h2).2 hi
    exact mul_neg_of_pos_of_neg this hk
  · by_cases hji : j = i
    · subst hji
      linarith
    · have h2 := hE j hji
      -- c_j + t_i l_j > 0 and t_k > t_i
      have h3 : c i * l j * (-l k) < c j * l i * (-l k) := mul_lt_mul_of_pos_right h2 (by linarith)
      have h4 : c i * l k * l j < c k * l i * l j := mul_lt_mul_of_pos_right h1 h
      have h5 : l i * (c j * l k) < l i * (c k * l j) := by linarith
      exact lt_of_mul_lt_mul_left h5 hi.le

theorem ends_iff {ι : Type} [Fintype ι] {c l : ι → K} (hg : ∀ i j, i ≠ j → c j * l i ≠ c i * l j) (hp : ∃ i, 0 < l i)
    (hn : ∃ i, l i < 0) : (∃ i, 0 < l i ∧ ∀ j, j ≠ i → c i * l j < c j * l i) ↔
      ∃ k, l k < 0 ∧ ∀ j, j ≠ k → c j * l k < c k * l j := by
  constructor
  · rintro ⟨i, h1, h2⟩
    obtain ⟨k, hk⟩ := hn
    exact ends hg h1 h2 hk
  · rintro ⟨k, h1, h2⟩
    obtain ⟨i, hi⟩ := hp
    obtain ⟨i, h3, h4⟩ := ends (c := c) (l := fun i => -l i) (fun i j hij => by
      have := hg i j hij
      simpa using this) (i := k) (by linarith) (fun j hj => by have := h2 j hj; linarith) (k0 := i) (by linarith)
    exact ⟨i, by linarith, fun j hj => by have := h4 j hj; linarith⟩

theorem inCone_swap {a b c d x : Vec4 K} : InCone b a c d x ↔
    det a b c x < 0 ∧ det a d b x < 0 ∧ det a c d x < 0 ∧ det b d c x < 0 := by
  have h1 : det b a c x = -det a b c x := swap0 ..
  have h2 : det b d a x = -det a d b x := by simp only [det, det3]; ring
  have h3 : det b c d x = -det b d c x := swap1 ..
  have h4 : det a d c x = -det a c d x := swap1 ..
  unfold InCone
  rw [h1, h2, h3, h4, neg_pos, neg_pos, neg_pos, neg_pos]
  tauto

/-- Being inside the cone of four of five vectors, in terms of the coefficients. -/
theorem inCone_coef {p q r s t x : Vec4 K} {cp cq cr cs ct lp lq lr ls lt : K}
    (hx : x = cp • p + cq • q + cr • r + cs • s + ct • t) (hp : lp = det q r s t) (hq : lq = -det p r s t)
    (hr : lr = det p q s t) (hs : ls = -det p q r t) (ht : lt = det p q r s) :
    (InCone p q r s x ↔ ct * lp < cp * lt ∧ ct * lq < cq * lt ∧ ct * lr < cr * lt ∧ ct * ls < cs * lt) ∧
    (InCone q p r s x ↔ cp * lt < ct * lp ∧ cq * lt < ct * lq ∧ cr * lt < ct * lr ∧ cs * lt < ct * ls) := by
  have h1 : det p q r x = cs * lt - ct * ls := by
    subst hx hs ht; simp only [det, det3, Pi.add_apply, Pi.smul_apply, smul_eq_mul]; ring
  have h2 : det p s q x = cr * lt - ct * lr := by
    subst hx hr ht; simp only [det, det3, Pi.add_apply, Pi.smul_apply, smul_eq_mul]; ring
  have h3 : det p r s x = cq * lt - ct * lq := by
    subst hx hq ht; simp only [det, det3, Pi.add_apply, Pi.smul_apply, smul_eq_mul]; ring
  have h4 : det q s r x = cp * lt - ct * lp := by
    subst hx hp ht; simp only [det, det3, Pi.add_apply, Pi.smul_apply, smul_eq_mul]; ring
  rw [inCone_swap (a := p) (b := q)]
  unfold InCone
  rw [h1, h2, h3, h4]
  simp only [sub_pos, sub_neg]
  tauto

theorem ex5 {P : Fin 5 → Prop} : (∃ i, P i) ↔ P 0 ∨ P 1 ∨ P 2 ∨ P 3 ∨ P 4 := by
  constructor
  · rintro ⟨i, h⟩
    fin_cases i
    · exact .inl h
    · exact .inr (.inl h)
    · exact .inr (.inr (.inl h))
    · exact .inr (.inr (.inr (.inl h)))
    · exact .inr (.inr (.inr (.inr h)))
  · rintro (h | h | h | h | h) <;> exact ⟨_, h⟩

theorem all5 {P : Fin 5 → Prop} : (∀ i, P i) ↔ P 0 ∧ P 1 ∧ P 2 ∧ P 3 ∧ P 4 := by
  constructor
  · intro h
    exact ⟨h 0, h 1, h 2, h 3, h 4⟩
  · rintro ⟨h0, h1, h2, h3, h4⟩ i
    fin_cases i <;> assumption

/-- No three of the vectors are in a plane with `x`. -/
def Free5 (a b c d e x : Vec4 K) : Prop :=
  det a b c x ≠ 0 ∧ det a b d x ≠ 0 ∧ det a b e x ≠ 0 ∧ det a c d x ≠ 0 ∧ det a c e x ≠ 0 ∧ det a d e x ≠ 0 ∧
    det b c d x ≠ 0 ∧ det b c e x ≠ 0 ∧ det b d e x ≠ 0 ∧ det c d e x ≠ 0

/-- The two ways to fill the space between five vectors. -/
theorem cones {a b c d e x : Vec4 K} (hg : Free5 a b c d e x)
    (hp : 0 < det b c d e ∨ 0 < det c a d e ∨ 0 < det a b d e ∨ 0 < det b a c e ∨ 0 < det a b c d)
    (hn : det b c d e < 0 ∨ det c a d e < 0 ∨ det a b d e < 0 ∨ det b a c e < 0 ∨ det a b c d < 0) :
    ((0 < det b c d e ∧ InCone b c d e x) ∨ (0 < det c a d e ∧ InCone c a d e x) ∨ (0 < det a b d e ∧ InCone a b d e x) ∨
      (0 < det b a c e ∧ InCone b a c e x) ∨ (0 < det a b c d ∧ InCone a b c d x)) ↔
    ((det b c d e < 0 ∧ InCone c b d e x) ∨ (det c a d e < 0 ∧ InCone a c d e x) ∨ (det a b d e < 0 ∧ InCone b a d e x) ∨
      (det b a c e < 0 ∧ InCone a b c e x) ∨ (det a b c d < 0 ∧ InCone b a c d x)) := by
  obtain ⟨ca, cb, cc, cd, ce, hx⟩ : ∃ ca cb cc cd ce : K, x = ca • a + cb • b + cc • c + cd • d + ce • e := by
    rcases hp with h | h | h | h | h <;> obtain ⟨k1, k2, k3, k4, h⟩ := basis h.ne' x
    · exact ⟨0, k1, k2, k3, k4, by rw [h]; module⟩
    · exact ⟨k2, 0, k1, k3, k4, by rw [h]; module⟩
    · exact ⟨k1, k2, 0, k3, k4, by rw [h]; module⟩
    · exact ⟨k2, k1, k3, 0, k4, by rw [h]; module⟩
    · exact ⟨k1, k2, k3, k4, 0, by rw [h]; module⟩
  generalize hla : det b c d e = la at *
  generalize hlb : det c a d e = lb at *
  generalize hlc : det a b d e = lc at *
  generalize hld : det b a c e = ld at *
  generalize hle : det a b c d = le at *
  obtain ⟨ua, na⟩ := inCone_coef (p := b) (q := c) (r := d) (s := e) (t := a) (x := x) (cp := cb) (cq := cc) (cr := cd)
    (cs := ce) (ct := ca) (lp := lb) (lq := lc) (lr := ld) (ls := le) (lt := la) (by rw [hx]; module)
    (by rw [← hlb]; simp only [det, det3]; ring) (by rw [← hlc]; simp only [det, det3]; ring)
    (by rw [← hld]; simp only [det, det3]; ring) (by rw [← hle]; simp only [det, det3]; ring) hla.symm
  obtain ⟨ub, nb⟩ := inCone_coef (p := c) (q := a) (r := d) (s := e) (t := b) (x := x) (cp := cc) (cq := ca) (cr := cd)
    (cs := ce) (ct := cb) (lp := lc) (lq := la) (lr := ld) (ls := le) (lt := lb) (by rw [hx]; module)
    (by rw [← hlc]; simp only [det, det3]; ring) (by rw [← hla]; simp only [det, det3]; ring)
    (by rw [← hld]; simp only [det, det3]; ring) (by rw [← hle]; simp only [det, det3]; ring) hlb.symm
  obtain ⟨uc, nc⟩ := inCone_coef (p := a) (q := b) (r := d) (s := e) (t := c) (x := x) (cp := ca) (cq := cb) (cr := cd)
    (cs := ce) (ct := cc) (lp := la) (lq := lb) (lr := ld) (ls := le) (lt := lc) (by rw [hx]; module)
    (by rw [← hla]; simp only [det, det3]; ring) (by rw [← hlb]; simp only [det, det3]; ring)
    (by rw [← hld]; simp only [det, det3]; ring) (by rw [← hle]; simp only [det, det3]; ring) hlc.symm
  obtain ⟨ud, nd⟩ := inCone_coef (p := b) (q := a) (r := c) (s := e) (t := d) (x := x) (cp := cb) (cq := ca) (cr := cc)
    (cs := ce) (ct := cd) (lp := lb) (lq := la) (lr := lc) (ls := le) (lt := ld) (by rw [hx]; module)
    (by rw [← hlb]; simp only [det, det3]; ring) (by rw [← hla]; simp only [det, det3]; ring)
    (by rw [← hlc]; simp only [det, det3]; ring) (by rw [← hle]; simp only [det, det3]; ring) hld.symm
  obtain ⟨ue, ne⟩ := inCone_coef (p := a) (q := b) (r := c) (s := d) (t := e) (x := x) (cp := ca) (cq := cb) (cr := cc)
    (cs := cd) (ct := ce) (lp := la) (lq := lb) (lr := lc) (ls := ld) (lt := le) hx
    hla.symm (by rw [← hlb]; simp only [det, det3]; ring)
    hlc.symm (by rw [← hld]; simp only [det, det3]; ring) hle.symm
  obtain ⟨g1, g2, g3, g4, g5, g6, g7, g8, g9, g10⟩ := hg
  have e1 : det a b c x = cd * le - ce * ld := by
    subst hx hld hle; simp only [det, det3, Pi.add_apply, Pi.smul_apply, smul_eq_mul]; ring
  have e2 : det a b d x = ce * lc - cc * le := by
    subst hx hlc hle; simp only [det, det3, Pi.add_apply, Pi.smul_apply, smul_eq_mul]; ring
  have e3 : det a b e x = cc * ld - cd * lc := by
    subst hx hlc hld; simp only [det, det3, Pi.add_apply, Pi.smul_apply, smul_eq_mul]; ring
  have e4 : det a c d x = cb * le - ce * lb := by
    subst hx hlb hle; simp only [det, det3, Pi.add_apply, Pi.smul_apply, smul_eq_mul]; ring
  have e5 : det a c e x = cd * lb - cb * ld := by
    subst hx hlb hld; simp only [det, det3, Pi.add_apply, Pi.smul_apply, smul_eq_mul]; ring
  have e6 : det a d e x = cb * lc - cc * lb := by
    subst hx hlb hlc; simp only [det, det3, Pi.add_apply, Pi.smul_apply, smul_eq_mul]; ring
  have e7 : det b c d x = ce * la - ca * le := by
    subst hx hla hle; simp only [det, det3, Pi.add_apply, Pi.smul_apply, smul_eq_mul]; ring
  have e8 : det b c e x = ca * ld - cd * la := by
    subst hx hla hld; simp only [det, det3, Pi.add_apply, Pi.smul_apply, smul_eq_mul]; ring
  have e9 : det b d e x = cc * la - ca * lc := by
    subst hx hla hlc; simp only [det, det3, Pi.add_apply, Pi.smul_apply, smul_eq_mul]; ring
  have e10 : det c d e x = ca * lb - cb * la := by
    subst hx hla hlb; simp only [det, det3, Pi.add_apply, Pi.smul_apply, smul_eq_mul]; ring
  rw [e1] at g1; rw [e2] at g2; rw [e3] at g3; rw [e4] at g4; rw [e5] at g5
  rw [e6] at g6; rw [e7] at g7; rw [e8] at g8; rw [e9] at g9; rw [e10] at g10
  have key := ends_iff (ι := Fin 5) (c := ![ca, cb, cc, cd, ce]) (l := ![la, lb, lc, ld, le]) (by
    simp only [sub_ne_zero] at g1 g2 g3 g4 g5 g6 g7 g8 g9 g10
    refine all5.2 ⟨all5.2 ⟨?_, ?_, ?_, ?_, ?_⟩, all5.2 ⟨?_, ?_, ?_, ?_, ?_⟩, all5.2 ⟨?_, ?_, ?_, ?_, ?_⟩,
      all5.2 ⟨?_, ?_, ?_, ?_, ?_⟩, all5.2 ⟨?_, ?_, ?_, ?_, ?_⟩⟩ <;> intro hij <;>
      first | exact absurd rfl hij | assumption | (apply Ne.symm; assumption)) (ex5.2 hp) (ex5.2 hn)
  rw [ex5, ex5] at key
  simp only [all5] at key
  rw [ua, ub, uc, ud, ue, na, nb, nc, nd, ne]
  refine Iff.trans ?_ (key.trans ?_)
  · refine or_congr (and_congr_right fun _ => ?_) (or_congr (and_congr_right fun _ => ?_) (or_congr
      (and_congr_right fun _ => ?_) (or_congr (and_congr_right fun _ => ?_) (and_congr_right fun _ => ?_)))) <;>
      refine ⟨fun ⟨h1, h2, h3, h4⟩ => ⟨fun h => ?_, fun h => ?_, fun h => ?_, fun h => ?_, fun h => ?_⟩,
        fun ⟨h0, h1, h2, h3, h4⟩ => ⟨?_, ?_, ?_, ?_⟩⟩ <;>
      first | exact absurd rfl h | assumption | exact h0 (by decide) | exact h1 (by decide) | exact h2 (by decide) |
        exact h3 (by decide) | exact h4 (by decide)
  · refine or_congr (and_congr_right fun _ => ?_) (or_congr (and_congr_right fun _ => ?_) (or_congr
      (and_congr_right fun _ => ?_) (or_congr (and_congr_right fun _ => ?_) (and_congr_right fun _ => ?_)))) <;>
      refine ⟨fun ⟨h0, h1, h2, h3, h4⟩ => ⟨?_, ?_, ?_, ?_⟩,
        fun ⟨h1, h2, h3, h4⟩ => ⟨fun h => ?_, fun h => ?_, fun h => ?_, fun h => ?_, fun h => ?_⟩⟩ <;>
      first | exact absurd rfl h | assumption | exact h0 (by decide) | exact h1 (by decide) | exact h2 (by decide) |
        exact h3 (by decide) | exact h4 (by decide)

end Vec4
end Tet
