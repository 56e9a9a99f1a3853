import Verif.Spec.PlcGeo
import Verif.Proofs.PlcRead
import Mathlib.Data.List.Rotate
import Mathlib.Tactic.Ring
import Mathlib.Tactic.LinearCombination
import Mathlib.Tactic.Linarith
import Mathlib.Tactic.FieldSimp
import Mathlib.Tactic.Positivity

/-!
# Even-odd counting
-/

namespace Tet.Plc
open PlcSpec

/-! ## Exclusive or -/

/-- The exclusive or of all. -/
def xorAll (l : List Bool) : Bool := l.foldr xor false

@[simp] theorem xorAll_nil : xorAll [] = false := rfl
@[simp] theorem xorAll_cons (b : Bool) (l : List Bool) : xorAll (b :: l) = (b ^^ xorAll l) := rfl

theorem xorAll_perm {l l' : List Bool} (h : l.Perm l') : xorAll l = xorAll l' := by
  induction h with
  | nil => rfl
  | cons x _ ih => simp [ih]
  | swap x y l =>
    simp only [xorAll_cons]
    cases x <;> cases y <;> simp
  | trans _ _ h1 h2 => exact h1.trans h2

theorem xorAll_map_xor {A : Type} (f g : A → Bool) : ∀ l : List A,
    xorAll (l.map fun x => f x ^^ g x) = (xorAll (l.map f) ^^ xorAll (l.map g))
  | [] => rfl
  | a :: l => by
    simp only [List.map_cons, xorAll_cons, xorAll_map_xor f g l]
    cases f a <;> cases g a <;> cases xorAll (l.map f) <;> cases xorAll (l.map g) <;> rfl

theorem sum_toNat (l : List Bool) : ((l.map Bool.toNat).sum % 2 != 0) = xorAll l := by
  induction l with
  | nil => rfl
  | cons b l ih =>
    rw [List.map_cons, List.sum_cons, xorAll_cons, ← ih]
    cases b with
    | false => simp
    | true =>
      rcases Nat.mod_two_eq_zero_or_one (l.map Bool.toNat).sum with h | h
      · simp [h, Nat.add_mod]
      · simp [h, Nat.add_mod]

theorem toNat_xorAll (l : List Bool) : (l.map Bool.toNat).sum % 2 = (xorAll l).toNat := by
  have := sum_toNat l
  rcases Nat.mod_two_eq_zero_or_one (l.map Bool.toNat).sum with h | h
  · rw [h] at this ⊢
    rw [← this]; rfl
  · rw [h] at this ⊢
    rw [← this]; rfl

/-! ## Going around a ring -/

theorem around_eq {A : Type} (l : List A) : around l = l.zip (l.rotate 1) := by
  cases l with
  | nil => rfl
  | cons a l => simp [around]

theorem around_rotate {A : Type} (l : List A) (n : Nat) : around (l.rotate n) = (around l).rotate n := by
  rw [around_eq, around_eq, List.rotate_rotate, Nat.add_comm, ← List.rotate_rotate]
  exact (List.zipWith_rotate_distrib Prod.mk l (l.rotate 1) n (by simp)).symm

theorem around_reverse {A : Type} (l : List A) : ((around l.reverse).map Prod.swap).Perm (around l) := by
  rw [around_eq, around_eq]
  have h1 : (l.reverse.zip (l.reverse.rotate 1)).map Prod.swap = (l.reverse.rotate 1).zip l.reverse :=
    List.zip_swap _ _
  rw [h1, List.rotate_reverse]
  rw [show (l.rotate (l.length - 1 % l.length)).reverse.zip l.reverse =
    ((l.rotate (l.length - 1 % l.length)).zip l).reverse from
      (List.reverse_zipWith (by simp)).symm]
  refine (List.reverse_perm _).trans ?_
  refine ((List.rotate_perm _ 1).symm).trans ?_
  rw [show ((l.rotate (l.length - 1 % l.length)).zip l).rotate 1 =
    ((l.rotate (l.length - 1 % l.length)).rotate 1).zip (l.rotate 1) from
      List.zipWith_rotate_distrib Prod.mk _ _ 1 (by simp)]
  rw [List.rotate_rotate]
  have : l.rotate (l.length - 1 % l.length + 1) = l := by
    rcases Nat.lt_or_ge 1 l.length with h | h
    · rw [Nat.mod_eq_of_lt h, Nat.sub_add_cancel (by omega), List.rotate_length]
    · match l, h with
      | [], _ => rfl
      | [a], _ => simp
  rw [this]

/-! ## Crossings -/

section order
variable {K : Type} [LinearOrder K] {orient : K × K → K × K → K × K → Bool}

/-- An edge counts if exactly one of the end points is not above the point. -/
theorem crosses_eq (p a b : K × K) : crosses orient p a b =
    ((decide (a.2 ≤ p.2) ^^ decide (b.2 ≤ p.2)) &&
      (if a.2 ≤ p.2 then orient p a b else orient p b a)) := by
  unfold crosses
  by_cases h1 : a.2 ≤ p.2 <;> by_cases h2 : b.2 ≤ p.2
  · by_cases h : a.2 > b.2
    · simp [h, h1, h2, not_lt.2 h1]
    · simp [h, h1, h2, not_lt.2 h2]
  · have : ¬ a.2 > b.2 := not_lt.2 (h1.trans (not_le.1 h2).le)
    simp [this, h1, h2, not_le.1 h2]
  · have : a.2 > b.2 := h2.trans_lt (not_le.1 h1)
    simp [this, h1, h2, not_le.1 h1]
  · by_cases h : a.2 > b.2 <;> simp [h, h1, h2]

theorem crosses_swap (p a b : K × K) : crosses orient p a b = crosses orient p b a := by
  rw [crosses_eq, crosses_eq]
  by_cases h1 : a.2 ≤ p.2 <;> by_cases h2 : b.2 ≤ p.2 <;> simp [h1, h2]

/-- The number of crossings of a ring is odd. -/
def odd (orient : K × K → K × K → K × K → Bool) (p : K × K) (ring : List (K × K)) : Bool :=
  xorAll ((around ring).map fun e => crosses orient p e.1 e.2)

theorem windows_eq {ring : List (K × K)} (h : ring ≠ []) : windows ring = some (around ring) := by
  cases ring with
  | nil => exact absurd rfl h
  | cons a l =>
    simp only [windows, List.getElem?_cons_zero, Option.bind_eq_bind, Option.bind_some, Option.pure_def, around,
      List.cons_append, List.tail_cons, Option.some.injEq]
    rw [List.zip_eq_zip_take_min]
    conv_rhs => rw [List.zip_eq_zip_take_min]
    simp [List.take_append]

theorem pointInFace_eq {P : Type} (xy : P → K × K) (point : P) {face : List (List P)} (h : ∀ r ∈ face, r ≠ []) :
    pointInFace orient xy point face =
      some (xorAll (face.map fun r => odd orient (xy point) (r.map xy))) := by
  have : face.mapM (fun ring => do
      let ws ← windows (ring.map xy)
      return (ws.map fun w => (crosses orient (xy point) w.1 w.2).toNat).sum % 2) =
      some (face.map fun r => (odd orient (xy point) (r.map xy)).toNat) := by
    induction face with
    | nil => rfl
    | cons r face ih =>
      rw [List.mapM_cons, ih fun s hs => h s (by simp [hs]),
        windows_eq (by simpa using h r (by simp))]
      simp only [Option.bind_eq_bind, Option.bind_some, Option.pure_def, List.map_cons]
      rw [odd, ← toNat_xorAll, List.map_map]
      rfl
  unfold pointInFace
  rw [this]
  simp only [Option.bind_eq_bind, Option.bind_some, Option.pure_def]
  rw [← sum_toNat, List.map_map]
  rfl

theorem odd_rotate (p : K × K) (l : List (K × K)) (n : Nat) : odd orient p (l.rotate n) = odd orient p l := by
  unfold odd
  rw [around_rotate]
  exact xorAll_perm ((List.rotate_perm _ _).map _)

theorem odd_reverse (p : K × K) (l : List (K × K)) : odd orient p l.reverse = odd orient p l := by
  unfold odd
  rw [← xorAll_perm ((around_reverse l).map fun e => crosses orient p e.1 e.2), List.map_map]
  congr 1
  apply List.map_congr_left
  rintro ⟨a, b⟩ _
  exact crosses_swap p a b

/-- Going around a ring is going around all the triangles with a fixed corner. -/
theorem odd_fan (p o : K × K) (l : List (K × K)) :
    odd orient p l = xorAll ((around l).map fun e => odd orient p [o, e.1, e.2]) := by
  have e1 : ∀ e : (K × K) × (K × K), odd orient p [o, e.1, e.2] =
      (crosses orient p e.1 e.2 ^^ (crosses orient p o e.1 ^^ crosses orient p o e.2)) := by
    intro e
    simp only [odd, around, List.cons_append, List.nil_append, List.zip_cons_cons, List.zip_nil_right, List.map_cons,
      List.map_nil, xorAll_cons, xorAll_nil]
    rw [crosses_swap p e.2 o]
    cases crosses orient p e.1 e.2 <;> cases crosses orient p o e.1 <;> cases crosses orient p o e.2 <;> rfl
  simp only [e1]
  rw [xorAll_map_xor, xorAll_map_xor]
  have e2 : (around l).map (fun e => crosses orient p o e.1) = l.map (crosses orient p o) := by
    rw [around_eq]
    conv_rhs => rw [← List.map_fst_zip (l₁ := l) (l₂ := l.rotate 1) (by simp)]
    rw [List.map_map]
    rfl
  have e3 : (around l).map (fun e => crosses orient p o e.2) = (l.rotate 1).map (crosses orient p o) := by
    rw [around_eq]
    conv_rhs => rw [← List.map_snd_zip (l₁ := l) (l₂ := l.rotate 1) (by simp)]
    rw [List.map_map]
    rfl
  rw [e2, e3, xorAll_perm ((List.rotate_perm l 1).map (crosses orient p o))]
  simp [odd]

end order

section field
variable {K : Type} [Field K] [LinearOrder K] [IsStrictOrderedRing K] {orient : K × K → K × K → K × K → Bool}

theorem _root_.Tet.PlcSpec.IsOrient.nonneg (h : IsOrient orient) {a b c : K × K} (ht : orient a b c = true) : 0 ≤ area a b c := by
  by_contra hc
  rw [h a b c (by intro h0; simp [h0] at hc)] at ht
  simp only [decide_eq_true_eq] at ht
  exact hc ht.le

theorem _root_.Tet.PlcSpec.IsOrient.nonpos (h : IsOrient orient) {a b c : K × K} (ht : orient a b c = false) : area a b c ≤ 0 := by
  by_contra hc
  rw [h a b c (by intro h0; simp [h0] at hc)] at ht
  simp only [decide_eq_false_iff_not] at ht
  exact ht (not_le.1 hc)

theorem hull_core {a b c p : K × K} {s t : K} (s0 : 0 ≤ s) (s1 : s ≤ 1) (t0 : 0 ≤ t) (t1 : t ≤ 1)
    (hs : a.2 + s * (b.2 - a.2) = p.2) (ht : a.2 + t * (c.2 - a.2) = p.2)
    (h1 : a.1 + t * (c.1 - a.1) ≤ p.1) (h2 : p.1 ≤ a.1 + s * (b.1 - a.1)) : InHull [a, b, c] p := by
  obtain ⟨u, u0, u1, hu⟩ : ∃ u : K, 0 ≤ u ∧ u ≤ 1 ∧
      p.1 = (a.1 + s * (b.1 - a.1)) + u * ((a.1 + t * (c.1 - a.1)) - (a.1 + s * (b.1 - a.1))) := by
    generalize a.1 + t * (c.1 - a.1) = x at *
    generalize a.1 + s * (b.1 - a.1) = y at *
    rcases (h1.trans h2).eq_or_lt with rfl | hlt
    · exact ⟨0, le_refl _, zero_le_one, by rw [zero_mul, add_zero]; exact le_antisymm h2 h1⟩
    · have hd : 0 < y - x := by linarith
      refine ⟨(y - p.1) / (y - x), div_nonneg (by linarith) hd.le, (div_le_one hd).2 (by linarith), ?_⟩
      field_simp
      ring
  refine ⟨[(1 - s * (1 - u) - t * u, a), (s * (1 - u), b), (t * u, c)], ?_, ?_, ?_⟩
  · have k1 : 0 ≤ s * (1 - u) := mul_nonneg s0 (by linarith)
    have k2 : 0 ≤ t * u := mul_nonneg t0 u0
    have k3 : s * (1 - u) ≤ 1 - u := mul_le_of_le_one_left (by linarith) s1
    have k4 : t * u ≤ u := mul_le_of_le_one_left u0 t1
    simp only [List.mem_cons, List.not_mem_nil, or_false, forall_eq_or_imp, forall_eq, true_or, or_true, and_true]
    exact ⟨by linarith, k1, k2⟩
  · simp only [List.map_cons, List.map_nil, List.sum_cons, List.sum_nil]
    ring
  · simp only [comb2, List.map_cons, List.map_nil, List.sum_cons, List.sum_nil]
    refine Prod.ext ?_ ?_
    · simp only
      rw [hu]; ring
    · simp only
      linear_combination (1 - u) * hs + u * ht

theorem _root_.Tet.PlcSpec.InHull.mono {l l' : List (K × K)} {p : K × K} (h : InHull l p) (hl : ∀ x ∈ l, x ∈ l') : InHull l' p := by
  obtain ⟨w, h1, h2, h3⟩ := h
  exact ⟨w, fun x hx => ⟨(h1 x hx).1, hl _ (h1 x hx).2⟩, h2, h3⟩

/-- Below: the corner `a` is not above the point, the others are. -/
theorem hull_below {a b c p : K × K} (ha : a.2 ≤ p.2) (hb : p.2 < b.2) (hc : p.2 < c.2)
    (h1 : 0 ≤ area p a b) (h2 : area p a c ≤ 0) : InHull [a, b, c] p := by
  have kb : 0 < b.2 - a.2 := by linarith
  have kc : 0 < c.2 - a.2 := by linarith
  have eb : a.2 + (p.2 - a.2) / (b.2 - a.2) * (b.2 - a.2) = p.2 := by
    rw [div_mul_cancel₀ _ kb.ne']; ring
  have ec : a.2 + (p.2 - a.2) / (c.2 - a.2) * (c.2 - a.2) = p.2 := by
    rw [div_mul_cancel₀ _ kc.ne']; ring
  have e1 : area p a b = (a.1 + (p.2 - a.2) / (b.2 - a.2) * (b.1 - a.1) - p.1) * (b.2 - a.2) := by
    have := kb.ne'
    simp only [area]; field_simp; ring
  have e2 : area p a c = (a.1 + (p.2 - a.2) / (c.2 - a.2) * (c.1 - a.1) - p.1) * (c.2 - a.2) := by
    have := kc.ne'
    simp only [area]; field_simp; ring
  refine hull_core (s := (p.2 - a.2) / (b.2 - a.2)) (t := (p.2 - a.2) / (c.2 - a.2))
    (div_nonneg (by linarith) kb.le) ((div_le_one kb).2 (by linarith)) (div_nonneg (by linarith) kc.le)
    ((div_le_one kc).2 (by linarith)) eb ec ?_ ?_
  · rw [e2] at h2
    have := nonpos_of_mul_nonpos_left h2 kc
    linarith
  · rw [e1] at h1
    have := nonneg_of_mul_nonneg_left h1 kb
    linarith

/-- Above: the corner `a` is above the point, the others are not. -/
theorem hull_above {a b c p : K × K} (ha : p.2 < a.2) (hb : b.2 ≤ p.2) (hc : c.2 ≤ p.2)
    (h1 : 0 ≤ area p b a) (h2 : area p c a ≤ 0) : InHull [a, b, c] p := by
  have kb : 0 < a.2 - b.2 := by linarith
  have kc : 0 < a.2 - c.2 := by linarith
  have eb : a.2 + (a.2 - p.2) / (a.2 - b.2) * (b.2 - a.2) = p.2 := by
    have := kb.ne'
    field_simp; ring
  have ec : a.2 + (a.2 - p.2) / (a.2 - c.2) * (c.2 - a.2) = p.2 := by
    have := kc.ne'
    field_simp; ring
  have e1 : area p b a = (a.1 + (a.2 - p.2) / (a.2 - b.2) * (b.1 - a.1) - p.1) * (a.2 - b.2) := by
    have := kb.ne'
    simp only [area]; field_simp; ring
  have e2 : area p c a = (a.1 + (a.2 - p.2) / (a.2 - c.2) * (c.1 - a.1) - p.1) * (a.2 - c.2) := by
    have := kc.ne'
    simp only [area]; field_simp; ring
  refine hull_core (s := (a.2 - p.2) / (a.2 - b.2)) (t := (a.2 - p.2) / (a.2 - c.2))
    (div_nonneg (by linarith) kb.le) ((div_le_one kb).2 (by linarith)) (div_nonneg (by linarith) kc.le)
    ((div_le_one kc).2 (by linarith)) eb ec ?_ ?_
  · rw [e2] at h2
    have := nonpos_of_mul_nonpos_left h2 kc
    linarith
  · rw [e1] at h1
    have := nonneg_of_mul_nonneg_left h1 kb
    linarith

/-- One corner on one side, two on the other. -/
theorem hull_of_odd (ho : IsOrient orient) {a b c p : K × K} (hb : decide (a.2 ≤ p.2) ≠ decide (b.2 ≤ p.2))
    (hc : decide (a.2 ≤ p.2) ≠ decide (c.2 ≤ p.2)) (h : crosses orient p a b ≠ crosses orient p a c) :
    InHull [a, b, c] p := by
  have hm : ∀ x ∈ [a, c, b], x ∈ [a, b, c] := by
    intro x; simp only [List.mem_cons, List.not_mem_nil, or_false]; tauto
  rw [crosses_eq, crosses_eq] at h
  by_cases ha : a.2 ≤ p.2
  · have hb' : ¬ b.2 ≤ p.2 := by simpa [ha] using hb
    have hc' : ¬ c.2 ≤ p.2 := by simpa [ha] using hc
    simp only [ha, hb', hc', decide_true, decide_false, Bool.xor_false, Bool.true_and, if_true] at h
    cases h1 : orient p a b with
    | true =>
      have h2 : orient p a c = false := by rw [h1] at h; simpa using h.symm
      exact hull_below ha (not_le.1 hb') (not_le.1 hc') (ho.nonneg h1) (ho.nonpos h2)
    | false =>
      have h2 : orient p a c = true := by rw [h1] at h; simpa using h.symm
      exact (hull_below ha (not_le.1 hc') (not_le.1 hb') (ho.nonneg h2) (ho.nonpos h1)).mono hm
  · have hb' : b.2 ≤ p.2 := by simpa [ha] using hb
    have hc' : c.2 ≤ p.2 := by simpa [ha] using hc
    simp only [ha, hb', hc', decide_true, decide_false, Bool.xor_true, Bool.not_false, Bool.true_and, if_false] at h
    cases h1 : orient p b a with
    | true =>
      have h2 : orient p c a = false := by rw [h1] at h; simpa using h.symm
      exact hull_above (not_le.1 ha) hb' hc' (ho.nonneg h1) (ho.nonpos h2)
    | false =>
      have h2 : orient p c a = true := by rw [h1] at h; simpa using h.symm
      exact (hull_above (not_le.1 ha) hc' hb' (ho.nonneg h2) (ho.nonpos h1)).mono hm

theorem crosses_same {p a b : K × K} (h : decide (a.2 ≤ p.2) = decide (b.2 ≤ p.2)) : crosses orient p a b = false := by
  rw [crosses_eq, h]
  simp

theorem odd_tri (p a b c : K × K) : odd orient p [a, b, c] =
    (crosses orient p a b ^^ crosses orient p b c ^^ crosses orient p c a) := by
  simp only [odd, around, List.cons_append, List.nil_append, List.zip_cons_cons, List.zip_nil_right, List.map_cons,
    List.map_nil, xorAll_cons, xorAll_nil, Bool.xor_false]
  cases crosses orient p a b <;> simp

/-- If the number is odd then the point is in the triangle. -/
theorem tri_hull (ho : IsOrient orient) {a b c p : K × K} (h : odd orient p [a, b, c] = true) :
    InHull [a, b, c] p := by
  rw [odd_tri] at h
  by_cases hab : decide (a.2 ≤ p.2) = decide (b.2 ≤ p.2)
  · rw [crosses_same hab, Bool.false_xor] at h
    by_cases hbc : decide (b.2 ≤ p.2) = decide (c.2 ≤ p.2)
    · rw [crosses_same hbc, crosses_same (hab.trans hbc).symm] at h
      cases h
    · refine (hull_of_odd ho (a := c) (b := a) (c := b) (by rw [hab]; exact Ne.symm hbc) (Ne.symm hbc) ?_).mono ?_
      · intro he
        rw [crosses_swap p b c, he] at h
        simp at h
      · intro x; simp only [List.mem_cons, List.not_mem_nil, or_false]; tauto
  · by_cases hbc : decide (b.2 ≤ p.2) = decide (c.2 ≤ p.2)
    · rw [crosses_same hbc, Bool.xor_false] at h
      refine hull_of_odd ho hab (by rw [← hbc]; exact hab) ?_
      intro he
      rw [crosses_swap p c a, he] at h
      simp at h
    · have hca : decide (c.2 ≤ p.2) = decide (a.2 ≤ p.2) := by
        revert hab hbc
        cases decide (a.2 ≤ p.2) <;> cases decide (b.2 ≤ p.2) <;> cases decide (c.2 ≤ p.2) <;> simp
      rw [crosses_same hca, Bool.xor_false] at h
      refine (hull_of_odd ho (a := b) (b := a) (c := c) (Ne.symm hab) hbc ?_).mono ?_
      · intro he
        rw [crosses_swap p a b, he] at h
        simp at h
      · intro x; simp only [List.mem_cons, List.not_mem_nil, or_false]; tauto

theorem xorAll_true {l : List Bool} (h : xorAll l = true) : true ∈ l := by
  induction l with
  | nil => cases h
  | cons b l ih =>
    cases b with
    | true => simp
    | false => simp [ih (by simpa using h)]

theorem mem_around {A : Type} {l : List A} {e : A × A} (h : e ∈ around l) : e.1 ∈ l ∧ e.2 ∈ l := by
  rw [around_eq] at h
  obtain ⟨h1, h2⟩ := List.of_mem_zip (a := e.1) (b := e.2) h
  exact ⟨h1, List.mem_rotate.1 h2⟩

/-- If the number is odd then the point is in the convex hull of the ring. -/
theorem odd_hull (ho : IsOrient orient) {l : List (K × K)} {p : K × K} (h : odd orient p l = true) :
    InHull l p := by
  cases l with
  | nil => cases h
  | cons o l =>
    rw [odd_fan p o] at h
    obtain ⟨e, he, h1⟩ := List.mem_map.1 (xorAll_true h)
    obtain ⟨k1, k2⟩ := mem_around he
    refine (tri_hull ho h1).mono ?_
    intro x hx
    simp only [List.mem_cons, List.not_mem_nil, or_false] at hx
    rcases hx with rfl | rfl | rfl
    · simp
    · exact k1
    · exact k2

/-- A point strictly inside a triangle has an odd number of crossings. -/
theorem tri_inside (ho : IsOrient orient) {a b c p : K × K} (hd : area a b c ≠ 0) (h : Inside a b c p) :
    odd orient p [a, b, c] = true := by
  obtain ⟨ka, kb, kc, ha, hb, hc, hsum, hp⟩ := h
  simp only [comb2, List.map_cons, List.map_nil, List.sum_cons, List.sum_nil] at hp
  obtain ⟨p1, p2⟩ := p
  simp only [Prod.mk.injEq] at hp
  obtain ⟨hp1, hp2⟩ := hp
  obtain rfl : kc = 1 - ka - kb := by linear_combination hsum
  -- the three orientations agree
  have e1 : area (p1, p2) a b = (1 - ka - kb) * area a b c := by
    rw [← hp1, ← hp2]; simp only [area]; ring
  have e2 : area (p1, p2) b c = ka * area a b c := by
    rw [← hp1, ← hp2]; simp only [area]; ring
  have e3 : area (p1, p2) c a = kb * area a b c := by
    rw [← hp1, ← hp2]; simp only [area]; ring
  have swap : ∀ x y z : K × K, area x z y = -area x y z := by
    intro x y z; simp only [area]; ring
  have sgn : ∀ {k : K} {x y : K × K}, 0 < k → area (p1, p2) x y = k * area a b c →
      orient (p1, p2) x y = decide (0 < area a b c) ∧ orient (p1, p2) y x = !decide (0 < area a b c) := by
    intro k x y hk he
    have hne : area (p1, p2) x y ≠ 0 := by rw [he]; exact mul_ne_zero hk.ne' hd
    have hpos : 0 < area (p1, p2) x y ↔ 0 < area a b c := by
      rw [he]; exact mul_pos_iff_of_pos_left hk
    refine ⟨?_, ?_⟩
    · rw [ho _ _ _ hne]
      simp only [hpos]
    · have hne' : area (p1, p2) y x ≠ 0 := by rw [swap]; exact neg_ne_zero.2 hne
      rw [ho _ _ _ hne', swap, ← decide_not]
      simp only [← hpos, decide_eq_decide, Left.neg_pos_iff, not_lt]
      exact ⟨le_of_lt, fun h => lt_of_le_of_ne h hne⟩
  obtain ⟨o1, o1'⟩ := sgn hc e1
  obtain ⟨o2, o2'⟩ := sgn ha e2
  obtain ⟨o3, o3'⟩ := sgn hb e3
  -- not all corners are on the same side
  have s1 : ¬(a.2 ≤ p2 ∧ b.2 ≤ p2 ∧ c.2 ≤ p2) := by
    rintro ⟨h1, h2, h3⟩
    have g1 : ka * (p2 - a.2) + kb * (p2 - b.2) + (1 - ka - kb) * (p2 - c.2) = 0 := by
      rw [← hp2]; ring
    have g2 := mul_nonneg ha.le (sub_nonneg.2 h1)
    have g3 := mul_nonneg hb.le (sub_nonneg.2 h2)
    have g4 := mul_nonneg hc.le (sub_nonneg.2 h3)
    have f1 : ka * (p2 - a.2) = 0 := by linarith
    have f2 : kb * (p2 - b.2) = 0 := by linarith
    have f3 : (1 - ka - kb) * (p2 - c.2) = 0 := by linarith
    have f1 := (mul_eq_zero.1 f1).resolve_left ha.ne'
    have f2 := (mul_eq_zero.1 f2).resolve_left hb.ne'
    have f3 := (mul_eq_zero.1 f3).resolve_left hc.ne'
    apply hd
    simp only [area]
    rw [show b.2 - c.2 = 0 by linarith, show a.2 - c.2 = 0 by linarith]
    ring
  have s2 : ¬(p2 < a.2 ∧ p2 < b.2 ∧ p2 < c.2) := by
    rintro ⟨h1, h2, h3⟩
    have g1 : ka * (a.2 - p2) + kb * (b.2 - p2) + (1 - ka - kb) * (c.2 - p2) = 0 := by
      rw [← hp2]; ring
    have g2 := mul_pos ha (sub_pos.2 h1)
    have g3 := mul_pos hb (sub_pos.2 h2)
    have g4 := mul_pos hc (sub_pos.2 h3)
    linarith
  rw [odd_tri, crosses_eq, crosses_eq, crosses_eq]
  simp only [o1, o1', o2, o2', o3, o3']
  simp only [← not_le] at s2
  generalize decide (0 < area a b c) = σ
  clear sgn swap e1 e2 e3 hp1 hp2 o1 o1' o2 o2' o3 o3' hd hsum
  by_cases ha' : a.2 ≤ p2 <;> by_cases hb' : b.2 ≤ p2 <;> by_cases hc' : c.2 ≤ p2 <;>
    simp only [ha', hb', hc', not_true, not_false_iff, and_self, and_true, true_and, and_false, false_and] at s1 s2 ⊢ <;>
    cases σ <;> rfl

end field
end Tet.Plc
