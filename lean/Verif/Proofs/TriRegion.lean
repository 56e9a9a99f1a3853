import Verif.Spec.TriSteiner

/-!
# The region of the triangulation at an edge
-/

namespace Tet
open Spec
variable {K C : Type} {ops : CdtOps K C} {cdt : C}

theorem regionLoop_mono : ∀ {n : Nat} {search region R : List Nat}, regionLoop ops cdt n search region = some R →
    regionLoop ops cdt (n + 1) search region = some R
  | 0, _, _, _, h => by simp [regionLoop] at h
  | n + 1, [], _, _, h => by simpa [regionLoop] using h
  | n + 1, e :: search, region, R, h => by
    rw [regionLoop] at h ⊢
    split_ifs at h ⊢ with hf
    · exact regionLoop_mono h
    · exact regionLoop_mono h

theorem regionLoop_le {n k : Nat} {search region R : List Nat} (h : regionLoop ops cdt n search region = some R) (hk : n ≤ k) :
    regionLoop ops cdt k search region = some R := by
  induction hk with
  | refl => exact h
  | step _ ih => exact regionLoop_mono ih

theorem regionLoop_sub {Q : Nat → Prop} (hQ : ∀ f e, Q f → e ∈ ops.sides cdt f → ops.isConstraint cdt e = false → Q (ops.face cdt e)) :
    ∀ {n : Nat} {search region R : List Nat}, regionLoop ops cdt n search region = some R → region.Nodup → (∀ f ∈ region, Q f) →
      (∀ e ∈ search, Q (ops.face cdt e)) → R.Nodup ∧ ∀ f ∈ R, Q f
  | 0, _, _, _, h, _, _, _ => by simp [regionLoop] at h
  | n + 1, [], _, _, h, h1, h2, _ => by
    simp only [regionLoop, Option.some.injEq] at h
    exact h ▸ ⟨h1, h2⟩
  | n + 1, e :: search, region, R, h, h1, h2, h3 => by
    rw [regionLoop] at h
    split_ifs at h with hf
    · exact regionLoop_sub hQ h h1 h2 fun e he => h3 e (List.mem_cons_of_mem _ he)
    · refine regionLoop_sub hQ h (List.nodup_cons.2 ⟨hf, h1⟩) ?_ ?_
      · intro f hm
        rcases List.mem_cons.1 hm with rfl | hm
        · exact h3 e List.mem_cons_self
        · exact h2 f hm
      · intro a ha
        rcases List.mem_append.1 ha with ha | ha
        · obtain ⟨k1, k2⟩ := List.mem_filter.1 (List.mem_reverse.1 ha)
          exact hQ _ a (h3 e List.mem_cons_self) k1 (by simpa using k2)
        · exact h3 a (List.mem_cons_of_mem _ ha)

theorem regionLoop_closed : ∀ {n : Nat} {search region R : List Nat}, regionLoop ops cdt n search region = some R →
    (∀ f ∈ region, ∀ a ∈ ops.sides cdt f, ops.isConstraint cdt a = false → ops.face cdt a ∈ region ∨ a ∈ search) →
    (∀ f ∈ region, f ∈ R) ∧ (∀ e ∈ search, ops.face cdt e ∈ R) ∧
      ∀ f ∈ R, ∀ a ∈ ops.sides cdt f, ops.isConstraint cdt a = false → ops.face cdt a ∈ R
  | 0, _, _, _, h, _ => by simp [regionLoop] at h
  | n + 1, [], _, _, h, h1 => by
    simp only [regionLoop, Option.some.injEq] at h
    subst h
    exact ⟨fun _ => id, by simp, fun f hf a ha hc => by simpa using h1 f hf a ha hc⟩
  | n + 1, e :: search, region, R, h, h1 => by
    rw [regionLoop] at h
    split_ifs at h with hf
    · obtain ⟨k1, k2, k3⟩ := regionLoop_closed h fun f hm a ha hc => by
        rcases h1 f hm a ha hc with h | h
        · exact .inl h
        · rcases List.mem_cons.1 h with rfl | h
          · exact .inl hf
          · exact .inr h
      exact ⟨k1, fun a ha => by
        rcases List.mem_cons.1 ha with rfl | ha
        · exact k1 _ hf
        · exact k2 a ha, k3⟩
    · obtain ⟨k1, k2, k3⟩ := regionLoop_closed h fun f hm a ha hc => by
        rcases List.mem_cons.1 hm with rfl | hm
        · exact .inr (List.mem_append_left _ (List.mem_reverse.2 (List.mem_filter.2 ⟨ha, by simp [hc]⟩)))
        · rcases h1 f hm a ha hc with h | h
          · exact .inl (List.mem_cons_of_mem _ h)
          · rcases List.mem_cons.1 h with rfl | h
            · exact .inl List.mem_cons_self
            · exact .inr (List.mem_append_right _ h)
      exact ⟨fun f hm => k1 f (List.mem_cons_of_mem _ hm), fun a ha => by
        rcases List.mem_cons.1 ha with rfl | ha
        · exact k1 _ List.mem_cons_self
        · exact k2 a (List.mem_append_right _ ha), k3⟩

theorem regionLoop_reached [Field K] [LinearOrder K] {n e : Nat} {R : List Nat} (h : regionLoop ops cdt n [e] [] = some R) :
    R.Nodup ∧ ∀ f, f ∈ R ↔ FaceReached ops cdt (ops.face cdt e) f := by
  obtain ⟨h1, h2⟩ := regionLoop_sub (Q := FaceReached ops cdt (ops.face cdt e)) (fun f e' hf he hc => .step hf he hc) h List.nodup_nil
    (by simp) (by simp only [List.mem_singleton, forall_eq]; exact .start)
  obtain ⟨-, h3, h4⟩ := regionLoop_closed h (by simp)
  refine ⟨h1, fun f => ⟨h2 f, fun hf => ?_⟩⟩
  induction hf with
  | start => exact h3 e List.mem_cons_self
  | step _ he hc ih => exact h4 _ ih _ he hc

/-- Whether there is a result and which does not depend on the fuel, if it is enough. -/
theorem regionLoop_settled (ops : CdtOps K C) (cdt : C) (search region : List Nat) : ∃ r, Settles (fun n => regionLoop ops cdt n search region) r := by
  by_cases h : ∃ n R, regionLoop ops cdt n search region = some R
  · obtain ⟨n, R, h⟩ := h
    exact ⟨some R, n, fun k hk => regionLoop_le h hk⟩
  · refine ⟨none, 0, fun k _ => ?_⟩
    cases hk : regionLoop ops cdt k search region with
    | none => exact hk
    | some R => exact absurd ⟨k, R, hk⟩ h

/-- If only finitely many faces can be reached, the loop ends. -/
theorem regionLoop_ends {Q : Nat → Prop} (hQ : ∀ f e, Q f → e ∈ ops.sides cdt f → ops.isConstraint cdt e = false → Q (ops.face cdt e))
    {F : List Nat} (hF : ∀ f, Q f → f ∈ F) : ∀ (k : Nat) (search region : List Nat), region.Nodup → (∀ f ∈ region, Q f) →
      F.length ≤ region.length + k → (∀ e ∈ search, Q (ops.face cdt e)) → ∃ n R, regionLoop ops cdt n search region = some R := by
  intro k
  induction k with
  | zero =>
    intro search
    induction search with
    | nil => exact fun region _ _ _ _ => ⟨1, region, rfl⟩
    | cons e search ih =>
      intro region h1 h2 h3 h4
      have hf : ops.face cdt e ∈ region := by
        by_contra hf
        have h5 : (ops.face cdt e :: region).Subperm F := List.subperm_of_subset (List.nodup_cons.2 ⟨hf, h1⟩) fun f hm => by
          rcases List.mem_cons.1 hm with rfl | hm
          · exact hF _ (h4 e List.mem_cons_self)
          · exact hF _ (h2 f hm)
        have := h5.length_le
        simp only [List.length_cons] at this
        omega
      obtain ⟨n, R, hn⟩ := ih region h1 h2 h3 fun a ha => h4 a (List.mem_cons_of_mem _ ha)
      exact ⟨n + 1, R, by rw [regionLoop, if_pos hf]; exact hn⟩
  | succ k ihk =>
    intro search
    induction search with
    | nil => exact fun region _ _ _ _ => ⟨1, region, rfl⟩
    | cons e search ih =>
      intro region h1 h2 h3 h4
      by_cases hf : ops.face cdt e ∈ region
      · obtain ⟨n, R, hn⟩ := ih region h1 h2 h3 fun a ha => h4 a (List.mem_cons_of_mem _ ha)
        exact ⟨n + 1, R, by rw [regionLoop, if_pos hf]; exact hn⟩
      · have he := h4 e List.mem_cons_self
        obtain ⟨n, R, hn⟩ := ihk (((ops.sides cdt (ops.face cdt e)).filter fun a => !ops.isConstraint cdt a).reverse ++ search)
          (ops.face cdt e :: region) (List.nodup_cons.2 ⟨hf, h1⟩) (by
            intro f hm
            rcases List.mem_cons.1 hm with rfl | hm
            · exact he
            · exact h2 f hm) (by simp only [List.length_cons]; omega) (by
            intro a ha
            rcases List.mem_append.1 ha with ha | ha
            · obtain ⟨k1, k2⟩ := List.mem_filter.1 (List.mem_reverse.1 ha)
              exact hQ _ a he k1 (by simpa using k2)
            · exact h4 a (List.mem_cons_of_mem _ ha))
        exact ⟨n + 1, R, by rw [regionLoop, if_neg hf]; exact hn⟩

end Tet
