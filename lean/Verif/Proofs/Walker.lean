import Verif.Model.Mesh
import Verif.Spec.Walker

/-! Finite tables of walker codes, and keys. -/

namespace Tet
open Spec

set_option maxRecDepth 8000

theorem firstIdx_eq : ∀ e, firstIdx e = perms e 0 := by decide
theorem secondIdx_eq : ∀ e, secondIdx e = perms e 1 := by decide
theorem thirdIdx_eq : ∀ e, thirdIdx e = perms e 2 := by decide
theorem face_eq : ∀ e, face e = perms e 3 := by decide

theorem permInv_toPerm : ∀ a x, permInv a (toPerm a x) = x := by decide
theorem toPerm_permInv : ∀ a x, toPerm a (permInv a x) = x := by decide
theorem toPerm_inj {a x y} (h : toPerm a x = toPerm a y) : x = y := by
  rw [← permInv_toPerm a x, h, permInv_toPerm]

theorem perms_toPerm : ∀ e p j, perms (toPerm e p) j = perms e (perms p j) := by decide
theorem perms_inj : ∀ e e', (∀ j, perms e j = perms e' j) → e = e' := by decide
theorem perms_injective : ∀ e i j, perms e i = perms e j → i = j := by decide

theorem toPerm_assoc (e p q : Code) : toPerm (toPerm e p) q = toPerm e (toPerm p q) :=
  perms_inj _ _ fun j => by simp only [perms_toPerm]

theorem toPerm_P0123 : ∀ e, toPerm e P0123 = e := by decide
theorem nfe_eq : ∀ e, nfe e = toPerm e P1203 := by decide
theorem pfe_eq : ∀ e, pfe e = toPerm e P2013 := by decide
theorem nve_eq : ∀ e, nve e = toPerm e P0231 := by decide
theorem pve_eq : ∀ e, pve e = toPerm e P0312 := by decide
theorem twin_eq : ∀ e, twin e = toPerm e P1032 := by decide
theorem opp_eq : ∀ e, opp e = toPerm e P2301 := by decide

theorem nfe_pfe : ∀ e, nfe (pfe e) = e := by decide
theorem pfe_nfe : ∀ e, pfe (nfe e) = e := by decide
theorem nfe_nfe : ∀ e, nfe (nfe e) = pfe e := by decide
theorem pfe_pfe : ∀ e, pfe (pfe e) = nfe e := by decide
theorem twin_twin : ∀ e, twin (twin e) = e := by decide
theorem opp_opp : ∀ e, opp (opp e) = e := by decide
theorem nve_pve : ∀ e, nve (pve e) = e := by decide
theorem pve_nve : ∀ e, pve (nve e) = e := by decide

theorem face_nfe : ∀ e, face (nfe e) = face e := by decide
theorem face_pfe : ∀ e, face (pfe e) = face e := by decide

theorem permInv_nfe : ∀ a x, permInv a (nfe x) = nfe (permInv a x) := by decide
theorem permInv_pfe : ∀ a x, permInv a (pfe x) = pfe (permInv a x) := by decide

/-- Two codes on the same face differ by a rotation. -/
theorem face_eq_iff : ∀ e e', face e = face e' ↔ e' = e ∨ e' = nfe e ∨ e' = pfe e := by decide

theorem perms_even : ∀ e, ∃ σ : Equiv.Perm (Fin 4), Equiv.Perm.sign σ = 1 ∧ ∀ j, σ j = perms e j := by
  decide

theorem even_perms : ∀ σ : Equiv.Perm (Fin 4), Equiv.Perm.sign σ = 1 → ∃ e, ∀ j, σ j = perms e j := by
  decide

theorem evenRearr_iff {α : Type} (x y : Fin 4 → α) :
    EvenRearr x y ↔ ∃ e, ∀ j, y j = x (perms e j) := by
  constructor
  · rintro ⟨σ, hσ, h⟩
    obtain ⟨e, he⟩ := even_perms σ hσ
    exact ⟨e, fun j => by rw [h, he]⟩
  · rintro ⟨e, h⟩
    obtain ⟨σ, hσ, he⟩ := perms_even e
    exact ⟨σ, hσ, fun j => by rw [h, he]⟩

theorem EvenRearr.refl {α : Type} (x : Fin 4 → α) : EvenRearr x x := ⟨1, by simp, by simp⟩
theorem EvenRearr.symm {α : Type} {x y : Fin 4 → α} (h : EvenRearr x y) : EvenRearr y x := by
  obtain ⟨σ, hσ, h⟩ := h
  exact ⟨σ⁻¹, by simp [hσ], fun j => by rw [h]; simp⟩
theorem EvenRearr.trans {α : Type} {x y z : Fin 4 → α} (h : EvenRearr x y) (h' : EvenRearr y z) :
    EvenRearr x z := by
  obtain ⟨σ, hσ, h⟩ := h
  obtain ⟨τ, hτ, h'⟩ := h'
  exact ⟨σ * τ, by simp [hσ, hτ], fun j => by rw [h', h]; simp⟩

/-! ### Keys -/

theorem sorted2_eq_iff (e e' : VId × VId) : sorted2 e = sorted2 e' ↔ e' = e ∨ e' = e.swap := by
  obtain ⟨a, b⟩ := e
  obtain ⟨c, d⟩ := e'
  simp only [sorted2, Prod.swap]
  split_ifs <;> simp only [Prod.mk.injEq] <;> omega

theorem triKey_rotate (a b c : VId) (h : a ≠ b ∧ b ≠ c ∧ c ≠ a) :
    triKey (b, c, a) = triKey (a, b, c) := by
  simp only [triKey, evenSorted3]
  split_ifs <;> simp only [Prod.mk.injEq] <;> omega

theorem triKey_rotation (x : V3) : Rotation x (triKey x) := by
  obtain ⟨a, b, c⟩ := x
  simp only [triKey, evenSorted3, Rotation]
  split_ifs <;> simp

theorem Rotation.symm {α : Type} {x y : α × α × α} (h : Rotation x y) : Rotation y x := by
  obtain ⟨a, b, c⟩ := x
  rcases h with h | h | h <;> subst h <;> simp [Rotation]

theorem Rotation.trans {α : Type} {x y z : α × α × α} (h : Rotation x y) (h' : Rotation y z) :
    Rotation x z := by
  obtain ⟨a, b, c⟩ := x
  rcases h with h | h | h <;> subst h <;> rcases h' with h | h | h <;> subst h <;> simp [Rotation]

theorem triKey_of_rotation {x y : V3} (h : x.1 ≠ x.2.1 ∧ x.2.1 ≠ x.2.2 ∧ x.2.2 ≠ x.1)
    (hr : Rotation x y) : triKey y = triKey x := by
  obtain ⟨a, b, c⟩ := x
  rcases hr with hr | hr | hr <;> subst hr
  · rfl
  · exact triKey_rotate a b c h
  · simp only at h ⊢
    rw [triKey_rotate b c a ⟨h.2.1, h.2.2, h.1⟩, triKey_rotate a b c h]

theorem evenSorted4_a {a b c d : Nat} (h : a < b ∧ a < c ∧ a < d) :
    evenSorted4 (a, b, c, d) = (a, triKey (b, c, d)) := by
  have h1 : ¬ (d < a ∧ d < b ∧ d < c) := by omega
  have h2 : ¬ (b < a ∧ b < c) := by omega
  have h3 : ¬ (c < a ∧ c < b) := by omega
  simp only [evenSorted4, triKey, h1, if_false]
  rw [show evenSorted3 (a, b, c) = (a, b, c) by simp only [evenSorted3, h2, h3, if_false]]

theorem evenSorted4_b {a b c d : Nat} (h : b < a ∧ b < c ∧ b < d) :
    evenSorted4 (a, b, c, d) = (b, triKey (c, a, d)) := by
  have h1 : ¬ (d < a ∧ d < b ∧ d < c) := by omega
  have h2 : b < a ∧ b < c := by omega
  simp only [evenSorted4, triKey, h1, if_false]
  rw [show evenSorted3 (a, b, c) = (b, c, a) by simp only [evenSorted3, h2, and_self, if_true]]

theorem evenSorted4_c {a b c d : Nat} (h : c < a ∧ c < b ∧ c < d) :
    evenSorted4 (a, b, c, d) = (c, triKey (a, b, d)) := by
  have h1 : ¬ (d < a ∧ d < b ∧ d < c) := by omega
  have h2 : ¬ (b < a ∧ b < c) := by omega
  have h3 : (c < a ∧ c < b) := by omega
  simp only [evenSorted4, triKey, h1, if_false]
  rw [show evenSorted3 (a, b, c) = (c, a, b) by
    simp only [evenSorted3, h2, h3, and_self, if_true, if_false]]

theorem evenSorted4_d {a b c d : Nat} (h : d < a ∧ d < b ∧ d < c) :
    evenSorted4 (a, b, c, d) = (d, triKey (c, b, a)) := by
  simp only [evenSorted4, triKey, h, and_self, if_true]

theorem min4 {a b c d : Nat} (h : a ≠ b ∧ a ≠ c ∧ a ≠ d ∧ b ≠ c ∧ b ≠ d ∧ c ≠ d) :
    (a < b ∧ a < c ∧ a < d) ∨ (b < a ∧ b < c ∧ b < d) ∨ (c < a ∧ c < b ∧ c < d) ∨
      (d < a ∧ d < b ∧ d < c) := by omega

theorem evenSorted4_rot012 (a b c d : Nat) (h : a ≠ b ∧ a ≠ c ∧ a ≠ d ∧ b ≠ c ∧ b ≠ d ∧ c ≠ d) :
    evenSorted4 (b, c, a, d) = evenSorted4 (a, b, c, d) := by
  rcases min4 h with hm | hm | hm | hm
  · rw [evenSorted4_a hm, evenSorted4_c (by omega)]
  · rw [evenSorted4_b hm, evenSorted4_a (by omega)]
  · rw [evenSorted4_c hm, evenSorted4_b (by omega)]
  · rw [evenSorted4_d hm, evenSorted4_d (by omega), triKey_of_rotation (x := (c, b, a))]
    · exact ⟨h.2.2.2.1.symm, h.1.symm, h.2.1⟩
    · simp [Rotation]

theorem evenSorted4_rot123 (a b c d : Nat) (h : a ≠ b ∧ a ≠ c ∧ a ≠ d ∧ b ≠ c ∧ b ≠ d ∧ c ≠ d) :
    evenSorted4 (a, c, d, b) = evenSorted4 (a, b, c, d) := by
  obtain ⟨h1, h2, h3, h4, h5, h6⟩ := h
  rcases min4 ⟨h1, h2, h3, h4, h5, h6⟩ with hm | hm | hm | hm
  · rw [evenSorted4_a hm, evenSorted4_a (by omega), triKey_of_rotation (x := (b, c, d))]
    · exact ⟨h4, h6, h5.symm⟩
    · simp [Rotation]
  · rw [evenSorted4_b hm, evenSorted4_d (by omega), triKey_of_rotation (x := (c, a, d))]
    · exact ⟨h2.symm, h3, h6.symm⟩
    · simp [Rotation]
  · rw [evenSorted4_c hm, evenSorted4_b (by omega), triKey_of_rotation (x := (a, b, d))]
    · exact ⟨h1, h5, h3.symm⟩
    · simp [Rotation]
  · rw [evenSorted4_d hm, evenSorted4_c (by omega), triKey_of_rotation (x := (c, b, a))]
    · exact ⟨h4.symm, h1.symm, h2⟩
    · simp [Rotation]

/-- The key of a quadruple given as a function. -/
def key4 (x : Fin 4 → Nat) : V4 := evenSorted4 (x 0, x 1, x 2, x 3)

theorem distinct4 {x : Fin 4 → Nat} (h : Function.Injective x) :
    x 0 ≠ x 1 ∧ x 0 ≠ x 2 ∧ x 0 ≠ x 3 ∧ x 1 ≠ x 2 ∧ x 1 ≠ x 3 ∧ x 2 ≠ x 3 := by
  refine ⟨?_, ?_, ?_, ?_, ?_, ?_⟩ <;> intro he <;> exact absurd (h he) (by decide)

theorem key4_rot012 {x : Fin 4 → Nat} (h : Function.Injective x) :
    key4 (x ∘ perms P1203) = key4 x :=
  evenSorted4_rot012 _ _ _ _ (distinct4 h)

theorem key4_rot123 {x : Fin 4 → Nat} (h : Function.Injective x) :
    key4 (x ∘ perms P0231) = key4 x :=
  evenSorted4_rot123 _ _ _ _ (distinct4 h)

theorem code_generated : ∀ e : Code, ∃ l ∈ [[], [P1203], [P1203, P1203], [P0231], [P0231, P0231],
    [P1203, P0231], [P1203, P0231, P0231], [P1203, P1203, P0231], [P1203, P1203, P0231, P0231],
    [P0231, P1203], [P0231, P0231, P1203], [P1203, P0231, P0231, P1203], [P0231, P1203, P1203],
    [P1203, P0231, P1203], [P1203, P0231, P1203, P1203]],
    e = l.foldl toPerm P0123 := by decide

theorem key4_foldl (l : List Code) (hl : ∀ c ∈ l, c = P1203 ∨ c = P0231) (x : Fin 4 → Nat)
    (h : Function.Injective x) (e : Code) :
    key4 (x ∘ perms (l.foldl toPerm e)) = key4 (x ∘ perms e) := by
  induction l generalizing e with
  | nil => rfl
  | cons c l ih =>
    rw [List.foldl_cons, ih (fun d hd => hl d (List.mem_cons_of_mem _ hd))]
    have hx : Function.Injective (x ∘ perms e) := h.comp fun i j => perms_injective e i j
    have he : x ∘ perms (toPerm e c) = (x ∘ perms e) ∘ perms c := by
      funext j; simp [perms_toPerm]
    rw [he]
    rcases hl c List.mem_cons_self with rfl | rfl
    · exact key4_rot012 hx
    · exact key4_rot123 hx

theorem key4_perms {x : Fin 4 → Nat} (h : Function.Injective x) (e : Code) :
    key4 (x ∘ perms e) = key4 x := by
  obtain ⟨l, hl, rfl⟩ := code_generated e
  rw [key4_foldl l ?_ x h P0123]
  · congr 1
    funext j
    fin_cases j <;> rfl
  · intro c hc
    simp only [List.mem_cons, List.not_mem_nil, or_false] at hl
    rcases hl with rfl | rfl | rfl | rfl | rfl | rfl | rfl | rfl | rfl | rfl | rfl | rfl | rfl |
      rfl | rfl <;> simp only [List.mem_cons, List.not_mem_nil, or_false] at hc <;> tauto

theorem quad_eta (x : V4) : x = (quad x 0, quad x 1, quad x 2, quad x 3) := rfl

theorem quad_rot_tail (p q r s : Nat) (y : V3) (h : Rotation (p, q, r) y) :
    ∃ g, ∀ j, quad (s, y) j = quad (s, p, q, r) (perms g j) := by
  rcases h with rfl | rfl | rfl
  · exact ⟨P0123, fun j => by fin_cases j <;> rfl⟩
  · exact ⟨P0231, fun j => by fin_cases j <;> rfl⟩
  · exact ⟨P0312, fun j => by fin_cases j <;> rfl⟩

theorem quad_rot_head (p q r s : Nat) (y : V3) (h : Rotation (p, q, r) y) :
    ∃ g, ∀ j, quad (y.1, y.2.1, y.2.2, s) j = quad (p, q, r, s) (perms g j) := by
  rcases h with rfl | rfl | rfl
  · exact ⟨P0123, fun j => by fin_cases j <;> rfl⟩
  · exact ⟨P1203, fun j => by fin_cases j <;> rfl⟩
  · exact ⟨P2013, fun j => by fin_cases j <;> rfl⟩

/-- The key is an even reordering. -/
theorem evenSorted4_even (x : V4) : EvenRearr (quad x) (quad (evenSorted4 x)) := by
  obtain ⟨a, b, c, d⟩ := x
  simp only [evenSorted4]
  split_ifs
  · refine EvenRearr.trans (y := quad (d, c, b, a)) ?_ ?_
    · rw [evenRearr_iff]
      exact ⟨P3210, fun j => by fin_cases j <;> rfl⟩
    · rw [evenRearr_iff]
      exact quad_rot_tail c b a d (evenSorted3 (c, b, a)) (triKey_rotation _)
  · refine EvenRearr.trans (y := quad ((evenSorted3 (a, b, c)).1, (evenSorted3 (a, b, c)).2.1,
      (evenSorted3 (a, b, c)).2.2, d)) ?_ ?_
    · rw [evenRearr_iff]
      exact quad_rot_head a b c d (evenSorted3 (a, b, c)) (triKey_rotation _)
    · rw [evenRearr_iff]
      exact quad_rot_tail _ _ _ _ (evenSorted3 ((evenSorted3 (a, b, c)).2.1,
        (evenSorted3 (a, b, c)).2.2, d)) (triKey_rotation _)

theorem quad_inj {α : Type} {x y : α × α × α × α} (h : ∀ j, quad x j = quad y j) : x = y := by
  obtain ⟨a, b, c, d⟩ := x
  obtain ⟨a', b', c', d'⟩ := y
  have h0 := h 0; have h1 := h 1; have h2 := h 2; have h3 := h 3
  simp [quad] at h0 h1 h2 h3
  simp [h0, h1, h2, h3]

theorem evenSorted4_eq_iff (x y : V4) (h : Function.Injective (quad x)) :
    evenSorted4 x = evenSorted4 y ↔ EvenRearr (quad x) (quad y) := by
  constructor
  · intro he
    exact EvenRearr.trans (evenSorted4_even x) (he ▸ EvenRearr.symm (evenSorted4_even y))
  · intro hr
    rw [evenRearr_iff] at hr
    obtain ⟨e, he⟩ := hr
    have hy : quad y = quad x ∘ perms e := funext he
    have := key4_perms h e
    rw [← hy] at this
    exact this.symm

/-- The four vertices shown by a walker, by position. -/
theorem Tet.quad_tet {T : Type} (t : Tet T) (e : Code) (j : Fin 4) :
    quad (t.tet e) j = t.vertices (perms e j) := by
  fin_cases j
  · exact congrArg t.vertices (firstIdx_eq e)
  · exact congrArg t.vertices (secondIdx_eq e)
  · exact congrArg t.vertices (thirdIdx_eq e)
  · exact congrArg t.vertices (face_eq e)

theorem Tet.tet_toPerm {T : Type} (t : Tet T) (e p : Code) :
    t.tet (toPerm e p) = (quad (t.tet e) (perms p 0), quad (t.tet e) (perms p 1),
      quad (t.tet e) (perms p 2), quad (t.tet e) (perms p 3)) := by
  apply quad_inj
  intro j
  rw [Tet.quad_tet, perms_toPerm]
  fin_cases j <;> exact (Tet.quad_tet t e _).symm

theorem tet4_perm {P V T : Type} {m : Mesh P V T} {w : Walker} {x : V4} (h : m.tet4 w = some x)
    (p : Perm) : m.tet4 (w.perm p) =
      some (quad x (perms p 0), quad x (perms p 1), quad x (perms p 2), quad x (perms p 3)) := by
  simp only [Mesh.tet4, Option.map_eq_some_iff] at h
  obtain ⟨t, ht, rfl⟩ := h
  simp only [Mesh.tet4, Walker.perm, ht, Option.map_some, Tet.tet_toPerm]

theorem walker_moves (w : Walker) :
    w.nfe = w.perm P1203 ∧ w.pfe = w.perm P2013 ∧ w.nve = w.perm P0231 ∧ w.pve = w.perm P0312 ∧
    w.twin = w.perm P1032 ∧ w.opp = w.perm P2301 := by
  simp only [Walker.nfe, Walker.pfe, Walker.nve, Walker.pve, Walker.twin, Walker.opp, Walker.perm,
      Walker.mk.injEq, true_and, nfe_eq, pfe_eq, nve_eq, pve_eq, twin_eq, opp_eq, and_self]

end Tet
