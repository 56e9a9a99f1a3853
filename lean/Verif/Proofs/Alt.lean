import Verif.Proofs.Quality
import Verif.Proofs.Walker
import Mathlib.GroupTheory.Perm.Fin
import Mathlib.GroupTheory.Perm.Sign

/-!
# Functions of four arguments that alternate
-/

namespace Tet
open Spec

theorem closure_adjacent : Submonoid.closure (Set.range fun i : Fin 3 => Equiv.swap i.castSucc i.succ) = ⊤ :=
  Equiv.Perm.mclosure_swap_castSucc_succ 3

/-- A function that changes by `neg` under exchange of neighbouring arguments changes by the sign of
any permutation. -/
theorem alt_perm {α β : Type} (neg : β → β) (hneg : ∀ x, neg (neg x) = x) (f : (Fin 4 → α) → β)
    (p : (Fin 4 → α) → Prop) (hp : ∀ v (σ : Equiv.Perm (Fin 4)), p v → p (v ∘ σ))
    (h : ∀ v, p v → ∀ i : Fin 3, f (v ∘ Equiv.swap i.castSucc i.succ) = neg (f v))
    (σ : Equiv.Perm (Fin 4)) (v : Fin 4 → α) (hv : p v) :
    f (v ∘ σ) = if Equiv.Perm.sign σ = 1 then f v else neg (f v) := by
  have : σ ∈ Submonoid.closure (Set.range fun i : Fin 3 => Equiv.swap i.castSucc i.succ) := by
    rw [closure_adjacent]; trivial
  induction this using Submonoid.closure_induction_right with
  | one => simp
  | mul_right τ _ s hs ih =>
    obtain ⟨i, rfl⟩ := hs
    have e : v ∘ ⇑(τ * Equiv.swap i.castSucc i.succ) = (v ∘ τ) ∘ Equiv.swap i.castSucc i.succ := rfl
    have hs : Equiv.Perm.sign (Equiv.swap i.castSucc i.succ) = -1 :=
      Equiv.Perm.sign_swap (by simp [Fin.ext_iff])
    rw [e, h _ (hp v τ hv), ih, Equiv.Perm.sign_mul, hs]
    rcases Int.units_eq_one_or (Equiv.Perm.sign τ) with h1 | h1
    · simp [h1]
    · simp [h1, hneg]

/-- Exchanging neighbours, for functions of four separate arguments. -/
theorem alt_perm4 {α β : Type} (neg : β → β) (hneg : ∀ x, neg (neg x) = x) (f : α → α → α → α → β)
    (p : (Fin 4 → α) → Prop) (hp : ∀ v (σ : Equiv.Perm (Fin 4)), p v → p (v ∘ σ))
    (h01 : ∀ a b c d, p ![a, b, c, d] → f b a c d = neg (f a b c d))
    (h12 : ∀ a b c d, p ![a, b, c, d] → f a c b d = neg (f a b c d))
    (h23 : ∀ a b c d, p ![a, b, c, d] → f a b d c = neg (f a b c d))
    (σ : Equiv.Perm (Fin 4)) (v : Fin 4 → α) (hv : p v) :
    f (v (σ 0)) (v (σ 1)) (v (σ 2)) (v (σ 3)) =
      if Equiv.Perm.sign σ = 1 then f (v 0) (v 1) (v 2) (v 3) else neg (f (v 0) (v 1) (v 2) (v 3)) := by
  refine alt_perm neg hneg (fun v => f (v 0) (v 1) (v 2) (v 3)) p hp ?_ σ v hv
  intro v hv i
  have e : v = ![v 0, v 1, v 2, v 3] := by funext j; fin_cases j <;> rfl
  rw [e] at hv
  fin_cases i
  · exact h01 _ _ _ _ hv
  · exact h12 _ _ _ _ hv
  · exact h23 _ _ _ _ hv

theorem alt_even {α β : Type} (neg : β → β) (hneg : ∀ x, neg (neg x) = x) (f : α → α → α → α → β)
    (p : (Fin 4 → α) → Prop) (hp : ∀ v (σ : Equiv.Perm (Fin 4)), p v → p (v ∘ σ))
    (h01 : ∀ a b c d, p ![a, b, c, d] → f b a c d = neg (f a b c d))
    (h12 : ∀ a b c d, p ![a, b, c, d] → f a c b d = neg (f a b c d))
    (h23 : ∀ a b c d, p ![a, b, c, d] → f a b d c = neg (f a b c d))
    {a b c d a' b' c' d' : α} (he : EvenRearr (quad (a, b, c, d)) (quad (a', b', c', d')))
    (hv : p (quad (a, b, c, d))) : f a' b' c' d' = f a b c d := by
  obtain ⟨σ, hσ, h⟩ := he
  have := alt_perm4 neg hneg f p hp h01 h12 h23 σ _ hv
  simp only [hσ, if_true] at this
  simp only [← h] at this
  exact this

variable {K : Type} [Field K] {V T : Type}

theorem ghostSign_perm {l l' : List VId} (h : ∀ x, x ∈ l ↔ x ∈ l') : (Mesh.ghostSign l : K) = Mesh.ghostSign l' := by
  simp [Mesh.ghostSign, h]

theorem map_neg_neg (x : Option K) : (x.map (-·)).map (-·) = x := by cases x <;> simp

theorem orient_alt (m : Mesh (Pt K) V T) (a b c d : VId) :
    m.orient b a c d = (m.orient a b c d).map (-·) ∧ m.orient a c b d = (m.orient a b c d).map (-·) ∧
      m.orient a b d c = (m.orient a b c d).map (-·) := by
  refine ⟨?_, ?_, ?_⟩
  · have : (Mesh.ghostSign [b, a, c, d] : K) = Mesh.ghostSign [a, b, c, d] :=
      ghostSign_perm fun x => by simp only [List.mem_cons, List.not_mem_nil, or_false]; tauto
    simp only [Mesh.orient, this]
    cases m.idxOri a <;> cases m.idxOri b <;> cases m.idxOri c <;> cases m.idxOri d <;> simp
    rename_i pa pb pc pd
    rw [orient_swap01 pa pb, mul_neg]
  · have : (Mesh.ghostSign [a, c, b, d] : K) = Mesh.ghostSign [a, b, c, d] :=
      ghostSign_perm fun x => by simp only [List.mem_cons, List.not_mem_nil, or_false]; tauto
    simp only [Mesh.orient, this]
    cases m.idxOri a <;> cases m.idxOri b <;> cases m.idxOri c <;> cases m.idxOri d <;> simp
    rename_i pa pb pc pd
    rw [orient_swap12 pa pb, mul_neg]
  · have : (Mesh.ghostSign [a, b, d, c] : K) = Mesh.ghostSign [a, b, c, d] :=
      ghostSign_perm fun x => by simp only [List.mem_cons, List.not_mem_nil, or_false]; tauto
    simp only [Mesh.orient, this]
    cases m.idxOri a <;> cases m.idxOri b <;> cases m.idxOri c <;> cases m.idxOri d <;> simp
    rename_i pa pb pc pd
    rw [orient_swap23 pa pb, mul_neg]

theorem inSphere_swaps (a b c d e : Pt K) :
    inSphere b a c d e = -inSphere a b c d e ∧ inSphere a c b d e = -inSphere a b c d e ∧
      inSphere a b d c e = -inSphere a b c d e := by
  refine ⟨?_, ?_, ?_⟩ <;> simp only [inSphere, Pt.norm2, Pt.dot, Pt.sub, Pt.cross] <;> ring

/-- `in_sphere` with the positions as an argument. -/
def sphereOf (ori : VId → Option (Pt K)) (oe : Option (Pt K)) (v0 v1 v2 v3 : VId) : Option K := do
  let p0 ← ori v0
  let p1 ← ori v1
  let p2 ← ori v2
  let p3 ← ori v3
  let p4 ← oe
  return (if v0 = GHOST then orient3d p3 p2 p1 p4
    else if v1 = GHOST then orient3d p2 p3 p0 p4
    else if v2 = GHOST then orient3d p1 p0 p3 p4
    else if v3 = GHOST then orient3d p0 p1 p2 p4
    else Tet.inSphere p0 p1 p2 p3 p4)

theorem sphereOf_alt (ori : VId → Option (Pt K)) (oe : Option (Pt K)) (a b c d : VId) (hd : [a, b, c, d].Nodup) :
    sphereOf ori oe b a c d = (sphereOf ori oe a b c d).map (-·) ∧ sphereOf ori oe a c b d = (sphereOf ori oe a b c d).map (-·) ∧
      sphereOf ori oe a b d c = (sphereOf ori oe a b c d).map (-·) := by
  simp only [List.nodup_cons, List.mem_cons, List.not_mem_nil, or_false, not_or, not_false_eq_true,
    List.nodup_nil, and_true] at hd
  obtain ⟨⟨h1, h2, h3⟩, ⟨h4, h5⟩, h6⟩ := hd
  simp only [sphereOf]
  generalize ori a = oa
  generalize ori b = ob
  generalize ori c = oc
  generalize ori d = od
  rcases oa with - | pa <;> rcases ob with - | pb <;> rcases oc with - | pc <;> rcases od with - | pd <;>
    rcases oe with - | pe <;> simp only [Option.bind_eq_bind, Option.bind_none, Option.bind_some, Option.map_none,
      Option.pure_def, Option.map_some, and_self, Option.some.injEq]
  obtain ⟨s1, s2, s3⟩ := inSphere_swaps pa pb pc pd pe
  have r : ∀ x y z w : Pt K, orient3d x y z w = -orient3d y x z w ∧ orient3d x y z w = -orient3d x z y w ∧
      orient3d x y z w = -orient3d z y x w := by
    intro x y z w
    refine ⟨?_, ?_, ?_⟩ <;> simp only [orient3d, Pt.dot, Pt.sub, Pt.cross] <;> ring
  refine ⟨?_, ?_, ?_⟩
  · by_cases ga : a = GHOST
    · have gb : b ≠ GHOST := fun h => h1 (ga.trans h.symm)
      simp only [if_pos ga, if_neg gb]
      exact (r _ _ _ _).1
    · by_cases gb : b = GHOST
      · simp only [if_pos gb, if_neg ga]
        exact (r _ _ _ _).1
      · simp only [if_neg gb, if_neg ga]
        split_ifs
        · exact (r _ _ _ _).1
        · exact (r _ _ _ _).1
        · exact s1
  · by_cases gb : b = GHOST
    · have gc : c ≠ GHOST := fun h => h4 (gb.trans h.symm)
      have ga : a ≠ GHOST := fun h => h1 (h.trans gb.symm)
      simp only [if_pos gb, if_neg gc, if_neg ga]
      rw [(r pc pd pa pe).1, (r pd pc pa pe).2.1, (r pd pa pc pe).2.2, (r pc pa pd pe).2.2, (r pd pa pc pe).1, (r pa pd pc pe).2.1, (r pa pc pd pe).1]
      simp
    · by_cases gc : c = GHOST
      · simp only [if_pos gc, if_neg gb]
        have ga : a ≠ GHOST := fun h => h2 (h.trans gc.symm)
        simp only [if_neg ga]
        rw [(r pb pd pa pe).2.1]
      · simp only [if_neg gb, if_neg gc]
        split_ifs
        · exact (r _ _ _ _).2.1
        · exact (r _ _ _ _).2.1
        · exact s2
  · by_cases gc : c = GHOST
    · have gd : d ≠ GHOST := fun h => h6 (gc.trans h.symm)
      simp only [if_pos gc, if_neg gd]
      split_ifs
      · exact (r _ _ _ _).1
      · exact (r _ _ _ _).1
      · exact (r _ _ _ _).1
    · by_cases gd : d = GHOST
      · simp only [if_pos gd, if_neg gc]
        split_ifs
        · exact (r _ _ _ _).1
        · exact (r _ _ _ _).1
        · exact (r _ _ _ _).1
      · simp only [if_neg gc, if_neg gd]
        split_ifs
        · exact (r _ _ _ _).1
        · exact (r _ _ _ _).1
        · exact s3

theorem inSphere_alt (m : Mesh (Pt K) V T) (a b c d e : VId) (hd : [a, b, c, d].Nodup) :
    m.inSphere b a c d e = (m.inSphere a b c d e).map (-·) ∧ m.inSphere a c b d e = (m.inSphere a b c d e).map (-·) ∧
      m.inSphere a b d c e = (m.inSphere a b c d e).map (-·) := 
  sphereOf_alt m.idxOri (m.idx e) a b c d hd

end Tet
