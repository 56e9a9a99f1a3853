import Verif.Model.Geo
import Verif.Spec.Geo
import Mathlib.Tactic.Ring
import Mathlib.Tactic.Linarith
import Mathlib.Tactic.FinCases
import Mathlib.Data.Fintype.Basic
import Mathlib.Tactic.FieldSimp
import Mathlib.Data.Fin.VecNotation
import Mathlib.Algebra.Module.Pi

/-!
# Points lifted to the paraboloid

The sphere test and the orientation test are determinants of lifted points, where the ghost vertex is the
point at infinity of the paraboloid.
-/

namespace Tet
variable {K : Type} [Field K]

/-- Vectors with five coordinates. -/
abbrev Vec5 (K : Type) := Fin 5 → K

namespace Vec5

def det3 (i j k : Fin 5) (a b c : Vec5 K) : K :=
  a i * (b j * c k - b k * c j) - a j * (b i * c k - b k * c i) + a k * (b i * c j - b j * c i)

def det4 (i j k l : Fin 5) (a b c d : Vec5 K) : K :=
  a i * det3 j k l b c d - a j * det3 i k l b c d + a k * det3 i j l b c d - a l * det3 i j k b c d

/-- The determinant of five vectors. -/
def det (a b c d e : Vec5 K) : K :=
  a 0 * det4 1 2 3 4 b c d e - a 1 * det4 0 2 3 4 b c d e + a 2 * det4 0 1 3 4 b c d e -
    a 3 * det4 0 1 2 4 b c d e + a 4 * det4 0 1 2 3 b c d e

theorem det_swap0 (a b c d e : Vec5 K) : det b a c d e = -det a b c d e := by
  simp only [det, det4, det3]; ring

theorem det_swap1 (a b c d e : Vec5 K) : det a c b d e = -det a b c d e := by
  simp only [det, det4, det3]; ring

theorem det_swap2 (a b c d e : Vec5 K) : det a b d c e = -det a b c d e := by
  simp only [det, det4, det3]; ring

theorem det_swap3 (a b c d e : Vec5 K) : det a b c e d = -det a b c d e := by
  simp only [det, det4, det3]; ring

theorem det_self0 (a b c d : Vec5 K) : det a b c d a = 0 := by
  simp only [det, det4, det3]; ring

theorem det_self1 (a b c d : Vec5 K) : det a b c d b = 0 := by
  simp only [det, det4, det3]; ring

theorem det_self2 (a b c d : Vec5 K) : det a b c d c = 0 := by
  simp only [det, det4, det3]; ring

theorem det_self3 (a b c d : Vec5 K) : det a b c d d = 0 := by
  simp only [det, det4, det3]; ring

theorem det_add (a b c d e f : Vec5 K) : det a b c d (e + f) = det a b c d e + det a b c d f := by
  simp only [det, det4, det3, Pi.add_apply]; ring

theorem det_smul (a b c d e : Vec5 K) (k : K) : det a b c d (k • e) = k * det a b c d e := by
  simp only [det, det4, det3, Pi.smul_apply, smul_eq_mul]; ring

theorem det_neg (a b c d e : Vec5 K) : det a b c d (-e) = -det a b c d e := by
  simp only [det, det4, det3, Pi.neg_apply]; ring

theorem cramer (a b c d e y : Vec5 K) : det a b c d e • y =
    det y b c d e • a + det a y c d e • b + det a b y d e • c + det a b c y e • d + det a b c d y • e := by
  funext i
  have h0 : det a b c d e * y 0 = det y b c d e * a 0 + det a y c d e * b 0 + det a b y d e * c 0 +
      det a b c y e * d 0 + det a b c d y * e 0 := by simp only [det, det4, det3]; ring
  have h1 : det a b c d e * y 1 = det y b c d e * a 1 + det a y c d e * b 1 + det a b y d e * c 1 +
      det a b c y e * d 1 + det a b c d y * e 1 := by simp only [det, det4, det3]; ring
  have h2 : det a b c d e * y 2 = det y b c d e * a 2 + det a y c d e * b 2 + det a b y d e * c 2 +
      det a b c y e * d 2 + det a b c d y * e 2 := by simp only [det, det4, det3]; ring
  have h3 : det a b c d e * y 3 = det y b c d e * a 3 + det a y c d e * b 3 + det a b y d e * c 3 +
      det a b c y e * d 3 + det a b c d y * e 3 := by simp only [det, det4, det3]; ring
  have h4 : det a b c d e * y 4 = det y b c d e * a 4 + det a y c d e * b 4 + det a b y d e * c 4 +
      det a b c y e * d 4 + det a b c d y * e 4 := by simp only [det, det4, det3]; ring
  match i with
  | 0 => exact h0
  | 1 => exact h1
  | 2 => exact h2
  | 3 => exact h3
  | 4 => exact h4

/-- Five independent vectors are a basis. -/
theorem basis {a b c d e : Vec5 K} (h : det a b c d e ≠ 0) (y : Vec5 K) :
    ∃ ka kb kc kd ke : K, y = ka • a + kb • b + kc • c + kd • d + ke • e := by
  refine ⟨(det a b c d e)⁻¹ * det y b c d e, (det a b c d e)⁻¹ * det a y c d e, (det a b c d e)⁻¹ * det a b y d e,
    (det a b c d e)⁻¹ * det a b c y e, (det a b c d e)⁻¹ * det a b c d y, ?_⟩
  simp only [mul_smul, ← smul_add]
  rw [← cramer, smul_smul, inv_mul_cancel₀ h, one_smul]

end Vec5

/-- A point on the paraboloid. -/
def lift (p : Pt K) : Vec5 K := ![p.x, p.y, p.z, 1, p.norm2]

/-- The point at infinity. -/
def liftGhost : Vec5 K := ![0, 0, 0, 0, 1]

theorem lift_apply (p : Pt K) : lift p 0 = p.x ∧ lift p 1 = p.y ∧ lift p 2 = p.z ∧ lift p 3 = 1 ∧
    lift p 4 = p.norm2 := ⟨rfl, rfl, rfl, rfl, rfl⟩

theorem liftGhost_apply : (liftGhost : Vec5 K) 0 = 0 ∧ (liftGhost : Vec5 K) 1 = 0 ∧ (liftGhost : Vec5 K) 2 = 0 ∧
    (liftGhost : Vec5 K) 3 = 0 ∧ (liftGhost : Vec5 K) 4 = 1 := ⟨rfl, rfl, rfl, rfl, rfl⟩

theorem det_solid (a b c d e : Pt K) :
    Vec5.det (lift a) (lift b) (lift c) (lift d) (lift e) = -inSphere a b c d e := by
  simp only [Vec5.det, Vec5.det4, Vec5.det3, lift_apply, inSphere, Pt.norm2, Pt.dot, Pt.sub, Pt.cross]; ring

theorem det_orient (a b c d : Pt K) :
    Vec5.det (lift a) (lift b) (lift c) (lift d) liftGhost = orient3d a b c d := by
  simp only [Vec5.det, Vec5.det4, Vec5.det3, lift_apply, liftGhost_apply, orient3d, Pt.norm2, Pt.dot, Pt.sub,
    Pt.cross]; ring

/-- The squared distance from `p`, as a linear function of lifted points. -/
def dist5 (p : Pt K) (y : Vec5 K) : K := y 4 - 2 * (p.x * y 0 + p.y * y 1 + p.z * y 2) + p.norm2 * y 3

theorem dist5_lift (p q : Pt K) : dist5 p (lift q) = (q.sub p).norm2 := by
  simp only [dist5, lift_apply, Pt.norm2, Pt.dot, Pt.sub]; ring

theorem dist5_ghost (p : Pt K) : dist5 p liftGhost = 1 := by
  simp only [dist5, liftGhost_apply]; ring

theorem dist5_add (p : Pt K) (y z : Vec5 K) : dist5 p (y + z) = dist5 p y + dist5 p z := by
  simp only [dist5, Pi.add_apply]; ring

theorem dist5_smul (p : Pt K) (k : K) (y : Vec5 K) : dist5 p (k • y) = k * dist5 p y := by
  simp only [dist5, Pi.smul_apply, smul_eq_mul]; ring

end Tet
