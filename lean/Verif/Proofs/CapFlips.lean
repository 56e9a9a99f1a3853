import Verif.Spec.Transform
import Verif.Props.Flips
import Verif.Proofs.Hull
import Verif.Proofs.FlipStates
import Verif.Proofs.ProgressBase

/-!
# A cap is a sequence of 2-to-3 flips

There is a consistent mesh with the tets that `cap_transform` and `shell_transform` should produce, because it is reached
by flips.
-/

namespace Tet
open Spec
variable {P V T : Type}

theorem trail_append (a : VId) (l₁ : List VId) (c : VId) (l₂ : List VId) (b : VId) :
    pathEdges a (l₁ ++ c :: l₂) b = pathEdges a l₁ c ++ pathEdges c l₂ b := by
  induction l₁ generalizing a with
  | nil => rfl
  | cons x l ih => simp only [List.cons_append, pathEdges, ih]

theorem mem_path {a b : VId} {l : List VId} {e : VId × VId} (h : e ∈ pathEdges a l b) :
    e.1 ∈ a :: (l ++ [b]) ∧ e.2 ∈ a :: (l ++ [b]) := by
  induction l generalizing a with
  | nil => simp only [pathEdges, List.mem_singleton] at h; subst h; simp
  | cons x l ih =>
    simp only [pathEdges, List.mem_cons] at h
    rcases h with rfl | h
    · simp
    · obtain ⟨h1, h2⟩ := ih h
      exact ⟨List.mem_cons_of_mem _ h1, List.mem_cons_of_mem _ h2⟩

theorem back_path {a b : VId} {l : List VId} (h : (a :: (l ++ [b])).Nodup) (x : VId) : (x, a) ∉ pathEdges a l b := by
  have key : ∀ (l : List VId) (a : VId) (e : VId × VId), e ∈ pathEdges a l b → e.2 ∈ l ++ [b] := by
    intro l
    induction l with
    | nil => intro a e h; simp only [pathEdges, List.mem_singleton] at h; subst h; simp
    | cons y l ih =>
      intro a e h
      simp only [pathEdges, List.mem_cons] at h
      rcases h with rfl | h
      · simp
      · exact List.mem_cons_of_mem _ (ih _ _ h)
  intro h'
  exact (List.nodup_cons.1 h).1 (key _ _ _ h')

/-- Corners of the triangles are corners of the polygon. -/
theorem Spec.Triangulated.corner {a b l s} (h : Triangulated a l b s) : ∀ r ∈ s, ∀ v ∈ list3 r, v ∈ a :: (l ++ [b]) := by
  induction h with
  | side => simp
  | @split a l₁ c l₂ b s t _ _ ih1 ih2 =>
    intro r hr v hv
    simp only [List.mem_cons, List.mem_append, List.not_mem_nil, or_false] at hr ih1 ih2 ⊢
    rcases hr with rfl | hr | hr
    · simp only [list3, List.mem_cons, List.not_mem_nil, or_false] at hv
      tauto
    · have := ih1 r hr v hv; tauto
    · have := ih2 r hr v hv; tauto

theorem triSides_corner {s : List V3} {e : VId × VId} (h : e ∈ triSides s) : ∃ r ∈ s, e.1 ∈ list3 r ∧ e.2 ∈ list3 r := by
  simp only [triSides, List.mem_flatMap] at h
  obtain ⟨r, hr, h⟩ := h
  refine ⟨r, hr, ?_⟩
  simp only [List.mem_cons, List.not_mem_nil, or_false] at h
  rcases h with rfl | rfl | rfl <;> simp [list3]

theorem mem_cones {vt vb : VId} {s : List V3} {p : V4} : p ∈ coneTets vt vb s ↔
    ∃ r ∈ s, p = (r.2.1, r.1, r.2.2, vt) ∨ p = (r.1, r.2.1, r.2.2, vb) := by
  simp [coneTets]

theorem same_refl (p : V4) : SameTet p p := by
  obtain ⟨a, b, c, d⟩ := p
  exact mem_twelve.1 (by simp [twelve])

/-- A 2-to-3 flip of two tets. -/
theorem flip23_at {m : Mesh P V T} (hm : Consistent m) {a b c d e : VId} (h1 : HasTet m (a, b, c, d)) (h2 : HasTet m (b, a, c, e))
    (hne : d ≠ e) (hno : ¬ HasEdge m d e) (rT : m.tets.size < idMax) (rE : m.edges.size < idMax) :
    ∃ m' : Mesh P V T, Consistent m' ∧ Replaces m m' [(a, b, c, d), (b, a, c, e)] [(b, a, d, e), (a, c, d, e), (c, b, d, e)] ∧
      m'.tets.size = m.tets.size + 1 ∧ m'.edges.size = m.edges.size + 1 := by
  obtain ⟨w, hw⟩ := h1
  obtain ⟨o, g1, g2⟩ := hm.toT.adj_tri (tet4_parts hw).2.2.2
  have hf : m.fourth o = some e := by
    obtain ⟨w', hw'⟩ := h2
    obtain ⟨t, q1, q2⟩ := Mesh.tri_iff.1 g2
    obtain ⟨t', q3, q4⟩ := Mesh.tri_iff.1 (tet4_parts hw').2.2.2
    obtain ⟨h5, h6⟩ := hm.toT.tunique _ _ _ _ _ _ q1 q3 (q4.trans q2.symm)
    obtain rfl : w' = o := by cases w'; cases o; cases h5; cases h6; rfl
    exact (tet4_parts hw').2.1
  obtain ⟨m', _, _, _, -, k1, k2, -, -, -, -, k3, k4⟩ := C19_flip23 hm hw g1 hf hne hno (numTets_of hm.toT rfl) (numEdges_of hm.toT rfl) rT rE
  exact ⟨m', k1, k2, numTets_eq k1.toT k3, numEdges_eq k1.toT k4⟩

theorem tet_mem_edge {m : Mesh P V T} (hm : Consistent m) {q : V4} (h : HasTet m q) {u v : VId} (hu : u ∈ list4 q) (hv : v ∈ list4 q)
    (hne : u ≠ v) : HasEdge m u v := by
  obtain ⟨a, b, c, d⟩ := q
  have key : ∀ {a b c d}, HasTet m (a, b, c, d) → HasEdge m a b := fun h => hm.toT.hasEdge_tet.2 ⟨_, _, h⟩
  have hh : ∀ {p}, p ∈ twelve (a, b, c, d) → HasTet m p := fun hp => HasTet.same h (mem_twelve.1 hp)
  simp only [list4, List.mem_cons, List.not_mem_nil, or_false] at hu hv
  rcases hu with rfl | rfl | rfl | rfl <;> rcases hv with rfl | rfl | rfl | rfl <;> first
    | exact absurd rfl hne
    | (refine key (hh (p := (_, _, c, d)) ?_); simp [twelve]; done)
    | (refine key (hh (p := (_, _, d, c)) ?_); simp [twelve]; done)
    | (refine key (hh (p := (_, _, b, d)) ?_); simp [twelve]; done)
    | (refine key (hh (p := (_, _, d, b)) ?_); simp [twelve]; done)
    | (refine key (hh (p := (_, _, b, c)) ?_); simp [twelve]; done)
    | (refine key (hh (p := (_, _, c, b)) ?_); simp [twelve]; done)
    | (refine key (hh (p := (_, _, a, d)) ?_); simp [twelve]; done)
    | (refine key (hh (p := (_, _, d, a)) ?_); simp [twelve]; done)
    | (refine key (hh (p := (_, _, a, c)) ?_); simp [twelve]; done)
    | (refine key (hh (p := (_, _, c, a)) ?_); simp [twelve]; done)
    | (refine key (hh (p := (_, _, a, b)) ?_); simp [twelve]; done)
    | (refine key (hh (p := (_, _, b, a)) ?_); simp [twelve]; done)

/-- The vertices of the tets of a cap. -/
theorem cap_mem {vt vb a b : VId} {l s} (h : Triangulated a l b s) {p : V4} (hp : p ∈ (b, vt, a, vb) :: coneTets vt vb s) {v : VId}
    (hv : v ∈ list4 p) : v = vt ∨ v = vb ∨ v ∈ a :: (l ++ [b]) := by
  rcases List.mem_cons.1 hp with rfl | hp
  · simp only [list4, List.mem_cons, List.not_mem_nil, or_false] at hv
    rcases hv with rfl | rfl | rfl | rfl <;> simp
  · obtain ⟨r, hr, hp⟩ := mem_cones.1 hp
    have h3 : v = vt ∨ v = vb ∨ v ∈ list3 r := by
      rcases hp with rfl | rfl <;> simp only [list4, list3, List.mem_cons, List.not_mem_nil, or_false] at hv ⊢ <;>
        rcases hv with h | h | h | h <;> simp [h]
    rcases h3 with h3 | h3 | h3
    · exact .inl h3
    · exact .inr (.inl h3)
    · exact .inr (.inr (h.corner r hr v h3))

/-- The cones have only one of the poles. -/
theorem one_pole {vt vb : VId} (hvv : vt ≠ vb) {r : V3} (h1 : vt ∉ list3 r) (h2 : vb ∉ list3 r) {p q : V4}
    (hp : p = (r.2.1, r.1, r.2.2, vt) ∨ p = (r.1, r.2.1, r.2.2, vb)) (hq : SameTet p q) : ¬ (vt ∈ list4 q ∧ vb ∈ list4 q) := by
  rintro ⟨h3, h4⟩
  rw [← SameTet.mem hq] at h3 h4
  simp only [list3, List.mem_cons, List.not_mem_nil, or_false, not_or] at h1 h2
  rcases hp with rfl | rfl
  · simp only [list4, List.mem_cons, List.not_mem_nil, or_false, hvv.symm] at h4
    rcases h4 with h | h | h
    · exact h2.2.1 h
    · exact h2.1 h
    · exact h2.2.2 h
  · simp only [list4, List.mem_cons, List.not_mem_nil, or_false, hvv] at h3
    rcases h3 with h | h | h
    · exact h1.1 h
    · exact h1.2.1 h
    · exact h1.2.2 h

/-- There is a mesh as after a cap transform. -/
def CapOk (P V T : Type) (vt vb a : VId) (l : List VId) (b : VId) (s : List V3) : Prop := ∀ {m : Mesh P V T}, Consistent m →
    (a :: (l ++ [b])).Nodup → vt ∉ a :: (l ++ [b]) → vb ∉ a :: (l ++ [b]) →
    (∀ p ∈ fanTets vt vb (pathEdges a l b), HasTet m p) → (∀ e ∈ triSides s, e ∈ pathEdges a l b ∨ ¬ HasEdge m e.1 e.2) →
    m.tets.size + s.length ≤ idMax → m.edges.size + s.length ≤ idMax →
    ∃ m' : Mesh P V T, Consistent m' ∧ Replaces m m' (fanTets vt vb (pathEdges a l b)) ((b, vt, a, vb) :: coneTets vt vb s) ∧
      m'.tets.size = m.tets.size + s.length ∧ m'.edges.size = m.edges.size + s.length

theorem poles {vt vb : VId} (es : List (VId × VId)) : ∀ p ∈ fanTets vt vb es, ∀ q, SameTet p q → vt ∈ list4 q ∧ vb ∈ list4 q := by
  intro p hp q hq
  obtain ⟨e, -, rfl⟩ := List.mem_map.1 hp
  exact ⟨(SameTet.mem hq _).1 (by simp [list4]), (SameTet.mem hq _).1 (by simp [list4])⟩

/-- Facts about the vertices of a polygon that is cut in two. -/
structure Cut (vt vb a : VId) (l₁ : List VId) (c : VId) (l₂ : List VId) (b : VId) : Prop where
  nd1 : (a :: (l₁ ++ [c])).Nodup
  nd2 : (c :: (l₂ ++ [b])).Nodup
  disj : ∀ v, v ∈ a :: (l₁ ++ [c]) → v ∈ c :: (l₂ ++ [b]) → v = c
  hac : a ≠ c
  hcb : c ≠ b
  hab : a ≠ b
  ht1 : vt ∉ a :: (l₁ ++ [c])
  ht2 : vt ∉ c :: (l₂ ++ [b])
  hb1 : vb ∉ a :: (l₁ ++ [c])
  hb2 : vb ∉ c :: (l₂ ++ [b])
  aR : a ∉ c :: (l₂ ++ [b])
  bL : b ∉ a :: (l₁ ++ [c])

theorem cut_of {vt vb a c b : VId} {l₁ l₂ : List VId} (hnd : (a :: ((l₁ ++ c :: l₂) ++ [b])).Nodup)
    (hvt : vt ∉ a :: ((l₁ ++ c :: l₂) ++ [b])) (hvb : vb ∉ a :: ((l₁ ++ c :: l₂) ++ [b])) : Cut vt vb a l₁ c l₂ b := by
  -- vertices
  have nd1 : (a :: (l₁ ++ [c])).Nodup := by
    have : (a :: (l₁ ++ [c])).Sublist (a :: ((l₁ ++ c :: l₂) ++ [b])) := by
      refine List.Sublist.cons_cons a ?_
      rw [List.append_assoc]
      exact List.Sublist.append_left (by simp) _
    exact this.nodup hnd
  have nd2 : (c :: (l₂ ++ [b])).Nodup := by
    have : (c :: (l₂ ++ [b])).Sublist (a :: ((l₁ ++ c :: l₂) ++ [b])) := by
      refine List.Sublist.cons a ?_
      rw [List.append_assoc]
      exact (List.sublist_append_right l₁ _)
    exact this.nodup hnd
  have disj : ∀ v, v ∈ a :: (l₁ ++ [c]) → v ∈ c :: (l₂ ++ [b]) → v = c := by
    intro v h1 h2
    by_contra hvc
    have h3 : v ∈ a :: l₁ := by simpa [hvc] using h1
    have h4 : v ∈ l₂ ++ [b] := by simpa [hvc] using h2
    have : ((a :: l₁) ++ (c :: (l₂ ++ [b]))).Nodup := by simpa using hnd
    exact (List.nodup_append.1 this).2.2 v h3 v (List.mem_cons_of_mem _ h4) rfl
  have sub1 : ∀ {v}, v ∈ a :: (l₁ ++ [c]) → v ∈ a :: ((l₁ ++ c :: l₂) ++ [b]) := by
    intro v hv; simp at hv ⊢; tauto
  have sub2 : ∀ {v}, v ∈ c :: (l₂ ++ [b]) → v ∈ a :: ((l₁ ++ c :: l₂) ++ [b]) := by
    intro v hv; simp at hv ⊢; tauto
  have hac : a ≠ c := fun h => by subst h; simp at hnd
  have hcb : c ≠ b := fun h => by subst h; simp at nd2
  have hab : a ≠ b := fun h => hac (disj a (by simp) (by simp [h]))
  have ht1 : vt ∉ a :: (l₁ ++ [c]) := fun h => hvt (sub1 h)
  have ht2 : vt ∉ c :: (l₂ ++ [b]) := fun h => hvt (sub2 h)
  have hb1 : vb ∉ a :: (l₁ ++ [c]) := fun h => hvb (sub1 h)
  have hb2 : vb ∉ c :: (l₂ ++ [b]) := fun h => hvb (sub2 h)
  exact ⟨nd1, nd2, disj, hac, hcb, hab, ht1, ht2, hb1, hb2, fun h => hac (disj a (by simp) h), fun h => hcb (disj b h (by simp)).symm⟩

/-- The mesh after the cap transforms of the two parts of a polygon. -/
theorem cap_two {vt vb a c b : VId} (hvv : vt ≠ vb) {l₁ l₂ s t} (hs : Triangulated a l₁ c s) (ht : Triangulated c l₂ b t)
    (ih1 : CapOk P V T vt vb a l₁ c s) (ih2 : CapOk P V T vt vb c l₂ b t) {m : Mesh P V T} (hm : Consistent m) (hcut : Cut vt vb a l₁ c l₂ b)
    (hf : ∀ p ∈ fanTets vt vb (pathEdges a l₁ c ++ pathEdges c l₂ b), HasTet m p)
    (hd : ∀ e ∈ triSides (s ++ t), e ∈ pathEdges a l₁ c ++ pathEdges c l₂ b ∨ ¬ HasEdge m e.1 e.2)
    (rT : m.tets.size + (s.length + t.length) ≤ idMax) (rE : m.edges.size + (s.length + t.length) ≤ idMax) :
    ∃ m2 : Mesh P V T, Consistent m2 ∧ (∀ q, HasTet m2 q ↔ (HasTet m q ∧ ∀ p ∈ fanTets vt vb (pathEdges a l₁ c ++ pathEdges c l₂ b), ¬ SameTet p q) ∨
      (∃ p ∈ (c, vt, a, vb) :: coneTets vt vb s, SameTet p q) ∨ ∃ p ∈ (b, vt, c, vb) :: coneTets vt vb t, SameTet p q) ∧
      m2.tets.size = m.tets.size + (s.length + t.length) ∧ m2.edges.size = m.edges.size + (s.length + t.length) := by
  obtain ⟨nd1, nd2, disj, hac, hcb, hab, ht1, ht2, hb1, hb2, aR, bL⟩ := hcut
  -- left
  obtain ⟨m1, c1, r1, n1, e1⟩ := ih1 hm nd1 ht1 hb1 (fun p hp => hf p (by simp only [fanTets, List.map_append, List.mem_append]; exact .inl hp))
    (fun e he => by
      have hmem : e ∈ triSides (s ++ t) := by
        simp only [triSides, List.flatMap_append, List.mem_append]; exact .inl he
      rcases hd e hmem with h | h
      · rcases List.mem_append.1 h with h | h
        · exact .inl h
        · exfalso
          obtain ⟨r, hr, h1, h2⟩ := triSides_corner he
          have q1 := disj _ (hs.corner r hr _ h1) (mem_path h).1
          have q2 := disj _ (hs.corner r hr _ h2) (mem_path h).2
          obtain ⟨w, hw⟩ := hf (e.2, vt, e.1, vb) (by simp only [fanTets, List.map_append, List.mem_append]; exact .inr (List.mem_map.2 ⟨e, h, rfl⟩))
          have := hm.distinct _ _ _ _ _ hw
          rw [q1, q2] at this
          simp at this
      · exact .inr h) (by omega) (by omega)
  -- edges after the left
  have edges1 : ∀ x y, x ∈ c :: (l₂ ++ [b]) → y ∈ c :: (l₂ ++ [b]) → HasEdge m1 x y → HasEdge m x y := by
    intro x y hx hy hE
    obtain ⟨u, v, hq⟩ := c1.toT.hasEdge_tet.1 hE
    have hxy : x ≠ y := by
      obtain ⟨w, hw⟩ := hq
      have := c1.distinct _ _ _ _ _ hw
      simp only [List.nodup_cons, List.mem_cons, not_or] at this
      exact this.1.1
    rcases (r1.2 _).1 hq with h | ⟨p, hp, hpq⟩
    · exact hm.toT.hasEdge_tet.2 ⟨_, _, h.1⟩
    · exfalso
      have hx1 : x ∈ list4 p := (SameTet.mem hpq _).2 (by simp [list4])
      have hy1 : y ∈ list4 p := (SameTet.mem hpq _).2 (by simp [list4])
      have hin : ∀ v ∈ list4 p, v = vt ∨ v = vb ∨ v ∈ a :: (l₁ ++ [c]) := fun v hv => cap_mem hs hp hv
      have key : ∀ v, v ∈ list4 p → v ∈ c :: (l₂ ++ [b]) → v = c := by
        intro v h1 h2
        rcases hin v h1 with rfl | rfl | h
        · exact absurd h2 ht2
        · exact absurd h2 hb2
        · exact disj v h h2
      exact hxy ((key x hx1 hx).trans (key y hy1 hy).symm)
  -- right
  have hf2 : ∀ p ∈ fanTets vt vb (pathEdges c l₂ b), HasTet m1 p := by
    intro p hp
    refine (r1.2 p).2 (.inl ⟨hf p (by simp only [fanTets, List.map_append, List.mem_append]; exact .inr hp), ?_⟩)
    rintro p' hp' hs'
    obtain ⟨e, he, rfl⟩ := List.mem_map.1 hp
    obtain ⟨e', he', rfl⟩ := List.mem_map.1 hp'
    have q1 := mem_path he
    have q2 := mem_path he'
    have key : ∀ v, v ∈ c :: (l₂ ++ [b]) → v ∈ list4 (e'.2, vt, e'.1, vb) → v = c := by
      intro v h1 h2
      simp only [list4, List.mem_cons, List.not_mem_nil, or_false] at h2
      rcases h2 with rfl | rfl | rfl | rfl
      · exact disj _ q2.2 h1
      · exact absurd h1 ht2
      · exact disj _ q2.1 h1
      · exact absurd h1 hb2
    have k1 := key e.1 q1.1 ((SameTet.mem hs' _).2 (by simp [list4]))
    have k2 := key e.2 q1.2 ((SameTet.mem hs' _).2 (by simp [list4]))
    obtain ⟨w, hw⟩ := hf (e.2, vt, e.1, vb) (by simp only [fanTets, List.map_append, List.mem_append]; exact .inr (List.mem_map.2 ⟨e, he, rfl⟩))
    have := hm.distinct _ _ _ _ _ hw
    rw [k1, k2] at this
    simp at this
  obtain ⟨m2, c2, r2, n2, e2⟩ := ih2 c1 nd2 ht2 hb2 hf2 (fun e he => by
      have hmem : e ∈ triSides (s ++ t) := by
        simp only [triSides, List.flatMap_append, List.mem_append]; exact .inr he
      obtain ⟨r, hr, h1, h2⟩ := triSides_corner he
      rcases hd e hmem with h | h
      · rcases List.mem_append.1 h with h | h
        · exfalso
          have q1 := disj _ (mem_path h).1 (ht.corner r hr _ h1)
          have q2 := disj _ (mem_path h).2 (ht.corner r hr _ h2)
          obtain ⟨w, hw⟩ := hf (e.2, vt, e.1, vb) (by simp only [fanTets, List.map_append, List.mem_append]; exact .inl (List.mem_map.2 ⟨e, h, rfl⟩))
          have := hm.distinct _ _ _ _ _ hw
          rw [q1, q2] at this
          simp at this
        · exact .inl h
      · exact .inr fun hE => h (edges1 _ _ (ht.corner r hr _ h1) (ht.corner r hr _ h2) hE)) (by omega) (by omega)
  have fanR : ∀ p ∈ fanTets vt vb (pathEdges c l₂ b), a ∉ list4 p := by
    intro p hp h
    obtain ⟨e, he, rfl⟩ := List.mem_map.1 hp
    simp only [list4, List.mem_cons, List.not_mem_nil, or_false] at h
    rcases h with h | h | h | h
    · exact aR (h ▸ (mem_path he).2)
    · exact ht1 (by simp [← h])
    · exact aR (h ▸ (mem_path he).1)
    · exact hb1 (by simp [← h])
  have memF : ∀ p, p ∈ fanTets vt vb (pathEdges a l₁ c ++ pathEdges c l₂ b) ↔ p ∈ fanTets vt vb (pathEdges a l₁ c) ∨ p ∈ fanTets vt vb (pathEdges c l₂ b) := by
    intro p
    simp only [fanTets, List.map_append, List.mem_append]
  refine ⟨m2, c2, fun q => ?_, by omega, by omega⟩
  constructor
  · intro h
    rcases (r2.2 _).1 h with ⟨h, h3⟩ | h
    · rcases (r1.2 _).1 h with ⟨h, h4⟩ | h
      · exact .inl ⟨h, fun p hp => ((memF p).1 hp).elim (h4 p) (h3 p)⟩
      · exact .inr (.inl h)
    · exact .inr (.inr h)
  · rintro (⟨h, h1⟩ | ⟨p, hp, hpq⟩ | h)
    · exact (r2.2 q).2 (.inl ⟨(r1.2 q).2 (.inl ⟨h, fun p hp => h1 p ((memF p).2 (.inl hp))⟩), fun p hp => h1 p ((memF p).2 (.inr hp))⟩)
    · refine (r2.2 q).2 (.inl ⟨(r1.2 q).2 (.inr ⟨p, hp, hpq⟩), fun p' hp' h => ?_⟩)
      rcases List.mem_cons.1 hp with rfl | hp
      · exact fanR p' hp' ((SameTet.mem h a).2 ((SameTet.mem hpq a).1 (by simp [list4])))
      · obtain ⟨r, hr, hp⟩ := mem_cones.1 hp
        exact one_pole hvv (fun h => ht1 (hs.corner r hr _ h)) (fun h => hb1 (hs.corner r hr _ h)) hp hpq (poles _ p' hp' q h)
    · exact (r2.2 q).2 (.inr h)

/-- The mesh after a cap transform, reached by flips. -/
theorem cap_flips {vt vb : VId} (hvv : vt ≠ vb) {a b l s} (h : Triangulated a l b s) : CapOk P V T vt vb a l b s := by
  induction h with
  | side a b =>
    intro m hm _ _ _ hf _ _ _
    refine ⟨m, hm, ⟨hf, fun q => ?_⟩, rfl, rfl⟩
    simp only [pathEdges, fanTets, List.map_cons, List.map_nil, coneTets, List.flatMap_nil, List.mem_singleton, forall_eq, exists_eq_left] at hf ⊢
    constructor
    · intro hq
      by_cases h : SameTet (b, vt, a, vb) q
      · exact .inr h
      · exact .inl ⟨hq, h⟩
    · rintro (h | h)
      · exact h.1
      · exact HasTet.same hf h
  | @split a l₁ c l₂ b s t hs ht ih1 ih2 =>
    intro m hm hnd hvt hvb hf hd rT rE
    have hcut := cut_of hnd hvt hvb
    rw [trail_append] at hf hd ⊢
    have hlen : ((a, c, b) :: (s ++ t)).length = s.length + t.length + 1 := by simp
    rw [hlen] at rT rE ⊢
    obtain ⟨m2, c2, r2, n2, e2⟩ := cap_two hvv hs ht ih1 ih2 hm hcut hf
      (fun e he => hd e (by simp only [triSides, List.flatMap_cons, List.mem_append] at he ⊢; exact .inr he)) (by omega) (by omega)
    have hcorn := (Triangulated.split hs ht).corner
    obtain ⟨nd1, nd2, disj, hac, hcb, hab, ht1, ht2, hb1, hb2, aR, bL⟩ := hcut
    have hta : vt ≠ a := fun h => hvt (by simp [h])
    have htb : vt ≠ b := fun h => hvt (by simp [h])
    have htc : vt ≠ c := fun h => hvt (by simp [h])
    have hba : vb ≠ a := fun h => hvb (by simp [h])
    have hbb : vb ≠ b := fun h => hvb (by simp [h])
    have hbc : vb ≠ c := fun h => hvb (by simp [h])
    have onePole : ∀ r ∈ (a, c, b) :: (s ++ t), ∀ p, (p = (r.2.1, r.1, r.2.2, vt) ∨ p = (r.1, r.2.1, r.2.2, vb)) → ∀ q, SameTet p q →
        ¬ (vt ∈ list4 q ∧ vb ∈ list4 q) := fun r hr p hp q hq =>
      one_pole hvv (fun h => hvt (hcorn r hr _ h)) (fun h => hvb (hcorn r hr _ h)) hp hq
    -- the last flip
    have spL : HasTet m2 (c, vt, a, vb) := (r2 _).2 (.inr (.inl ⟨_, List.mem_cons_self, same_refl _⟩))
    have spR : HasTet m2 (b, vt, c, vb) := (r2 _).2 (.inr (.inr ⟨_, List.mem_cons_self, same_refl _⟩))
    have noE : ¬ HasEdge m a b := by
      intro hE
      rcases hd (b, a) (by simp [triSides]) with h | h
      · rcases List.mem_append.1 h with h | h
        · exact bL (mem_path h).1
        · exact aR (mem_path h).2
      · exact h (hasEdge_comm.1 hE)
    have noE2 : ¬ HasEdge m2 a b := by
      intro hE
      obtain ⟨u, v, hq⟩ := c2.toT.hasEdge_tet.1 hE
      rcases (r2 _).1 hq with ⟨hq, -⟩ | ⟨p, hp, hpq⟩ | ⟨p, hp, hpq⟩
      · exact noE (hm.toT.hasEdge_tet.2 ⟨_, _, hq⟩)
      · rcases cap_mem hs hp ((SameTet.mem hpq b).2 (by simp [list4])) with h | h | h
        · exact htb h.symm
        · exact hbb h.symm
        · exact bL h
      · rcases cap_mem ht hp ((SameTet.mem hpq a).2 (by simp [list4])) with h | h | h
        · exact hta h.symm
        · exact hba h.symm
        · exact aR h
    obtain ⟨m3, c3, r3, n3, e3⟩ := flip23_at c2 (a := c) (b := vb) (c := vt) (d := a) (e := b) (HasTet.same spL (mem_twelve.1 (by simp [twelve])))
      (HasTet.same spR (mem_twelve.1 (by simp [twelve]))) hab noE2 (by omega) (by omega)
    refine ⟨m3, c3, ⟨hf, fun q => ?_⟩, by omega, by omega⟩
    have sL : ∀ q, SameTet (c, vb, vt, a) q ↔ SameTet (c, vt, a, vb) q := sameTet_congr (mem_twelve.1 (by simp [twelve]))
    have sR : ∀ q, SameTet (vb, c, vt, b) q ↔ SameTet (b, vt, c, vb) q := sameTet_congr (mem_twelve.1 (by simp [twelve]))
    have t1 : ∀ q, SameTet (vb, c, a, b) q ↔ SameTet (a, c, b, vb) q := sameTet_congr (mem_twelve.1 (by simp [twelve]))
    have t2 : ∀ q, SameTet (c, vt, a, b) q ↔ SameTet (c, a, b, vt) q := sameTet_congr (mem_twelve.1 (by simp [twelve]))
    have t3 : ∀ q, SameTet (vt, vb, a, b) q ↔ SameTet (b, vt, a, vb) q := sameTet_congr (mem_twelve.1 (by simp [twelve]))
    have q3 := r3.2 q
    simp only [List.mem_cons, List.not_mem_nil, or_false, forall_eq_or_imp, forall_eq, exists_eq_or_imp, exists_eq_left, sL, sR, t1, t2, t3] at q3
    have memC : ∀ p, p ∈ coneTets vt vb ((a, c, b) :: (s ++ t)) ↔ p = (c, a, b, vt) ∨ p = (a, c, b, vb) ∨ p ∈ coneTets vt vb s ∨ p ∈ coneTets vt vb t := by
      intro p
      simp [coneTets, or_assoc]
    have pole : ∀ p ∈ coneTets vt vb ((a, c, b) :: (s ++ t)), ∀ q, SameTet p q → ¬ (vt ∈ list4 q ∧ vb ∈ list4 q) := by
      intro p hp
      obtain ⟨r, hr, hp⟩ := mem_cones.1 hp
      exact onePole r hr p hp
    have sL' : ∀ q, SameTet (c, vt, a, vb) q → vt ∈ list4 q ∧ vb ∈ list4 q := fun q h =>
      ⟨(SameTet.mem h _).1 (by simp [list4]), (SameTet.mem h _).1 (by simp [list4])⟩
    have sR' : ∀ q, SameTet (b, vt, c, vb) q → vt ∈ list4 q ∧ vb ∈ list4 q := fun q h =>
      ⟨(SameTet.mem h _).1 (by simp [list4]), (SameTet.mem h _).1 (by simp [list4])⟩
    rw [q3]
    constructor
    · rintro (⟨h, h1, h2⟩ | h | h | h)
      · rcases (r2 _).1 h with h | ⟨p, hp, hpq⟩ | ⟨p, hp, hpq⟩
        · exact .inl h
        · rcases List.mem_cons.1 hp with rfl | hp
          · exact absurd hpq h1
          · exact .inr ⟨p, List.mem_cons_of_mem _ ((memC p).2 (.inr (.inr (.inl hp)))), hpq⟩
        · rcases List.mem_cons.1 hp with rfl | hp
          · exact absurd hpq h2
          · exact .inr ⟨p, List.mem_cons_of_mem _ ((memC p).2 (.inr (.inr (.inr hp)))), hpq⟩
      · exact .inr ⟨_, List.mem_cons_of_mem _ ((memC _).2 (.inr (.inl rfl))), h⟩
      · exact .inr ⟨_, List.mem_cons_of_mem _ ((memC _).2 (.inl rfl)), h⟩
      · exact .inr ⟨_, List.mem_cons_self, h⟩
    · rintro (⟨h, h1⟩ | ⟨p, hp, hpq⟩)
      · refine .inl ⟨(r2 q).2 (.inl ⟨h, h1⟩), ?_, ?_⟩
        · intro h2
          cases hs with
          | side => exact h1 (c, vt, a, vb) (by simp [fanTets, pathEdges]) h2
          | @split _ l₃ d l₄ _ s₁ s₂ k1 k2 =>
            rcases hd (c, a) (by simp [triSides]) with h3 | h3
            · rcases List.mem_append.1 h3 with h3 | h3
              · exact back_path nd1 _ h3
              · exact aR (mem_path h3).2
            · exact h3 (tet_mem_edge hm h ((SameTet.mem h2 _).1 (by simp [list4])) ((SameTet.mem h2 _).1 (by simp [list4])) hac.symm)
        · intro h2
          cases ht with
          | side => exact h1 (b, vt, c, vb) (by simp [fanTets, pathEdges]) h2
          | @split _ l₃ d l₄ _ s₁ s₂ k1 k2 =>
            rcases hd (b, c) (by simp [triSides]) with h3 | h3
            · rcases List.mem_append.1 h3 with h3 | h3
              · exact bL (mem_path h3).1
              · exact back_path nd2 _ h3
            · exact h3 (tet_mem_edge hm h ((SameTet.mem h2 _).1 (by simp [list4])) ((SameTet.mem h2 _).1 (by simp [list4])) hcb.symm)
      · rcases List.mem_cons.1 hp with rfl | hp'
        · exact .inr (.inr (.inr hpq))
        · have np := pole p hp' q hpq
          rcases (memC p).1 hp' with rfl | rfl | hp | hp
          · exact .inr (.inr (.inl hpq))
          · exact .inr (.inl hpq)
          · exact .inl ⟨(r2 q).2 (.inr (.inl ⟨p, List.mem_cons_of_mem _ hp, hpq⟩)), fun h => np (sL' q h), fun h => np (sR' q h)⟩
          · exact .inl ⟨(r2 q).2 (.inr (.inr ⟨p, List.mem_cons_of_mem _ hp, hpq⟩)), fun h => np (sL' q h), fun h => np (sR' q h)⟩

/-- The tet on the other side of a triangle. -/
theorem adj_fourth {m : Mesh P V T} (hm : Consistent m) {w : Walker} {a b c d e : VId} (hw : m.tet4 w = some (a, b, c, d))
    (h : HasTet m (b, a, c, e)) : ∃ o, m.toAdj w = some o ∧ m.tet4 o = some (b, a, c, e) := by
  obtain ⟨o, g1, g2⟩ := hm.toT.adj_tri (tet4_parts hw).2.2.2
  obtain ⟨w', hw'⟩ := h
  obtain ⟨t, q1, q2⟩ := Mesh.tri_iff.1 g2
  obtain ⟨t', q3, q4⟩ := Mesh.tri_iff.1 (tet4_parts hw').2.2.2
  obtain ⟨h5, h6⟩ := hm.toT.tunique _ _ _ _ _ _ q1 q3 (q4.trans q2.symm)
  obtain rfl : w' = o := by cases w'; cases o; cases h5; cases h6; rfl
  exact ⟨_, g1, hw'⟩

/-- A 3-to-2 flip of three tets. -/
theorem flip32_at {m : Mesh P V T} (hm : Consistent m) {x y c d e : VId} (h1 : HasTet m (x, y, c, d)) (h2 : HasTet m (x, y, d, e))
    (h3 : HasTet m (x, y, e, c)) (hno : ¬ HasTri m (d, c, e)) :
    ∃ m' : Mesh P V T, Consistent m' ∧ Replaces m m' [(x, y, c, d), (x, y, d, e), (x, y, e, c)] [(d, c, e, x), (c, d, e, y)] := by
  obtain ⟨w, hw⟩ := h1
  obtain ⟨o1, s1, hw1⟩ := adj_fourth hm (tet4_turns hw).2.2.1 h2
  obtain ⟨o2, s2, hw2⟩ := adj_fourth hm (tet4_turns hw1).2.2.1 h3
  obtain ⟨o3, s3, hw3⟩ := adj_fourth hm (tet4_turns hw2).2.2.1 ⟨w, hw⟩
  obtain rfl : o3 = w := by
    obtain ⟨t, q1, q2⟩ := Mesh.tri_iff.1 (tet4_parts hw).2.2.2
    obtain ⟨t', q3, q4⟩ := Mesh.tri_iff.1 (tet4_parts hw3).2.2.2
    obtain ⟨h5, h6⟩ := hm.toT.tunique _ _ _ _ _ _ q1 q3 (q4.trans q2.symm)
    cases w; cases o3; cases h5; cases h6; rfl
  obtain ⟨m', _, _, -, k1, k2, -⟩ := C20_flip32 hm hw s1 s2 s3 (tet4_parts hw1).2.1 hno (numTets_of hm.toT rfl) (numEdges_of hm.toT rfl)
  exact ⟨m', k1, k2⟩

/-- The mesh after a shell transform, reached by flips. -/
theorem shell_flips {vt vb : VId} (hvv : vt ≠ vb) {a l₁ c l₂ b s t} (hs : Triangulated a l₁ c s) (ht : Triangulated c l₂ b t)
    {m : Mesh P V T} (hm : Consistent m) (hnd : (a :: ((l₁ ++ c :: l₂) ++ [b])).Nodup)
    (hvt : vt ∉ a :: ((l₁ ++ c :: l₂) ++ [b])) (hvb : vb ∉ a :: ((l₁ ++ c :: l₂) ++ [b]))
    (hf : ∀ p ∈ fanTets vt vb (pathEdges a (l₁ ++ c :: l₂) b ++ [(b, a)]), HasTet m p)
    (hd : ∀ e ∈ triSides ((a, c, b) :: (s ++ t)), e ∈ pathEdges a (l₁ ++ c :: l₂) b ++ [(b, a)] ∨ ¬ HasEdge m e.1 e.2)
    (hno : ¬ HasTri m (c, a, b))
    (rT : m.tets.size + (s.length + t.length) ≤ idMax) (rE : m.edges.size + (s.length + t.length) ≤ idMax) :
    ∃ m' : Mesh P V T, Consistent m' ∧ Replaces m m' (fanTets vt vb (pathEdges a (l₁ ++ c :: l₂) b ++ [(b, a)]))
      (coneTets vt vb ((a, c, b) :: (s ++ t))) := by
  have hcut := cut_of hnd hvt hvb
  rw [trail_append] at hf hd ⊢
  have hf1 : ∀ p ∈ fanTets vt vb (pathEdges a l₁ c ++ pathEdges c l₂ b), HasTet m p := fun p hp => hf p (by
    simp only [fanTets, List.map_append, List.mem_append] at hp ⊢; exact .inl hp)
  have hfc : HasTet m (a, vt, b, vb) := hf _ (by simp [fanTets])
  have hcorn := (Triangulated.split hs ht).corner
  obtain ⟨m2, c2, r2, n2, e2⟩ := cap_two hvv hs ht (cap_flips hvv hs) (cap_flips hvv ht) hm hcut hf1
    (fun e he => by
      rcases hd e (by simp only [triSides, List.flatMap_cons, List.mem_append] at he ⊢; exact .inr he) with h | h
      · rcases List.mem_append.1 h with h | h
        · exact .inl h
        · exfalso
          rw [List.mem_singleton] at h
          subst h
          obtain ⟨r, hr, h1, h2⟩ := triSides_corner he
          rcases List.mem_append.1 hr with hr | hr
          · exact hcut.bL (hs.corner r hr _ h1)
          · exact hcut.aR (ht.corner r hr _ h2)
      · exact .inr h) (by omega) (by omega)
  obtain ⟨nd1, nd2, disj, hac, hcb, hab, ht1, ht2, hb1, hb2, aR, bL⟩ := hcut
  have hta : vt ≠ a := fun h => hvt (by simp [h])
  have htb : vt ≠ b := fun h => hvt (by simp [h])
  have hba : vb ≠ a := fun h => hvb (by simp [h])
  have hbb : vb ≠ b := fun h => hvb (by simp [h])
  have spL : HasTet m2 (c, vt, a, vb) := (r2 _).2 (.inr (.inl ⟨_, List.mem_cons_self, same_refl _⟩))
  have spR : HasTet m2 (b, vt, c, vb) := (r2 _).2 (.inr (.inr ⟨_, List.mem_cons_self, same_refl _⟩))
  -- no tet of the first part has `b`, none of the second has `a`
  have bL' : ∀ p ∈ (c, vt, a, vb) :: coneTets vt vb s, b ∉ list4 p := by
    intro p hp h
    rcases cap_mem hs hp h with h | h | h
    · exact htb h.symm
    · exact hbb h.symm
    · exact bL h
  have aR' : ∀ p ∈ (b, vt, c, vb) :: coneTets vt vb t, a ∉ list4 p := by
    intro p hp h
    rcases cap_mem ht hp h with h | h | h
    · exact hta h.symm
    · exact hba h.symm
    · exact aR h
  have bothLR : ∀ q, ((∃ p ∈ (c, vt, a, vb) :: coneTets vt vb s, SameTet p q) ∨ ∃ p ∈ (b, vt, c, vb) :: coneTets vt vb t, SameTet p q) →
      ¬ (a ∈ list4 q ∧ b ∈ list4 q) := by
    rintro q (⟨p, hp, h⟩ | ⟨p, hp, h⟩) ⟨h1, h2⟩
    · exact bL' p hp ((SameTet.mem h b).2 h2)
    · exact aR' p hp ((SameTet.mem h a).2 h1)
  have spC : HasTet m2 (a, vt, b, vb) := by
    refine (r2 _).2 (.inl ⟨hfc, fun p hp h => ?_⟩)
    obtain ⟨e, he, rfl⟩ := List.mem_map.1 hp
    have key : ∀ v, v ∈ list4 (e.2, vt, e.1, vb) → v ≠ vt → v ≠ vb → v = e.1 ∨ v = e.2 := by
      intro v hv h1 h2
      simp only [list4, List.mem_cons, List.not_mem_nil, or_false, h1, h2, false_or] at hv
      tauto
    have ka := key a ((SameTet.mem h a).2 (by simp [list4])) hta.symm hba.symm
    have kb := key b ((SameTet.mem h b).2 (by simp [list4])) htb.symm hbb.symm
    rcases List.mem_append.1 he with he | he
    · obtain ⟨h1, h2⟩ := mem_path he
      rcases kb with kb | kb
      · exact bL (kb ▸ h1)
      · exact bL (kb ▸ h2)
    · obtain ⟨h1, h2⟩ := mem_path he
      rcases ka with ka | ka
      · exact aR (ka ▸ h1)
      · exact aR (ka ▸ h2)
  have noT : ¬ HasTri m2 (c, a, b) := by
    intro h
    obtain ⟨d, h⟩ := hasTri_iff.1 h
    rcases (r2 _).1 h with ⟨h, -⟩ | h
    · exact hno (hasTri_iff.2 ⟨d, h⟩)
    · exact bothLR _ h ⟨by simp [list4], by simp [list4]⟩
  obtain ⟨m3, c3, r3⟩ := flip32_at c2 (x := vt) (y := vb) (c := a) (d := c) (e := b) (HasTet.same spL (mem_twelve.1 (by simp [twelve])))
    (HasTet.same spR (mem_twelve.1 (by simp [twelve]))) (HasTet.same spC (mem_twelve.1 (by simp [twelve]))) noT
  refine ⟨m3, c3, ⟨hf, fun q => ?_⟩⟩
  have sL : ∀ q, SameTet (vt, vb, a, c) q ↔ SameTet (c, vt, a, vb) q := sameTet_congr (mem_twelve.1 (by simp [twelve]))
  have sR : ∀ q, SameTet (vt, vb, c, b) q ↔ SameTet (b, vt, c, vb) q := sameTet_congr (mem_twelve.1 (by simp [twelve]))
  have sC : ∀ q, SameTet (vt, vb, b, a) q ↔ SameTet (a, vt, b, vb) q := sameTet_congr (mem_twelve.1 (by simp [twelve]))
  have q3 := r3.2 q
  simp only [List.mem_cons, List.not_mem_nil, or_false, forall_eq_or_imp, forall_eq, exists_eq_or_imp, exists_eq_left, sL, sR, sC] at q3
  have memC : ∀ p, p ∈ coneTets vt vb ((a, c, b) :: (s ++ t)) ↔ p = (c, a, b, vt) ∨ p = (a, c, b, vb) ∨ p ∈ coneTets vt vb s ∨ p ∈ coneTets vt vb t := by
    intro p
    simp [coneTets, or_assoc]
  have memF : ∀ p, p ∈ fanTets vt vb (pathEdges a l₁ c ++ pathEdges c l₂ b ++ [(b, a)]) ↔ p ∈ fanTets vt vb (pathEdges a l₁ c ++ pathEdges c l₂ b) ∨ p = (a, vt, b, vb) := by
    intro p
    simp only [fanTets, List.map_append, List.mem_append, List.map_cons, List.map_nil, List.mem_singleton]
  have pole : ∀ p ∈ coneTets vt vb ((a, c, b) :: (s ++ t)), ∀ q, SameTet p q → ¬ (vt ∈ list4 q ∧ vb ∈ list4 q) := by
    intro p hp q hq
    obtain ⟨r, hr, hp⟩ := mem_cones.1 hp
    exact one_pole hvv (fun h => hvt (hcorn r hr _ h)) (fun h => hvb (hcorn r hr _ h)) hp hq
  have sP : ∀ x y q, SameTet (x, vt, y, vb) q → vt ∈ list4 q ∧ vb ∈ list4 q := fun x y q h =>
    ⟨(SameTet.mem h _).1 (by simp [list4]), (SameTet.mem h _).1 (by simp [list4])⟩
  rw [q3]
  constructor
  · rintro (⟨h, h1, h2, h3⟩ | h | h)
    · rcases (r2 _).1 h with ⟨h, h'⟩ | ⟨p, hp, hpq⟩ | ⟨p, hp, hpq⟩
      · exact .inl ⟨h, fun p hp => ((memF p).1 hp).elim (h' p) (fun e => e ▸ h3)⟩
      · rcases List.mem_cons.1 hp with rfl | hp
        · exact absurd hpq h1
        · exact .inr ⟨p, (memC p).2 (.inr (.inr (.inl hp))), hpq⟩
      · rcases List.mem_cons.1 hp with rfl | hp
        · exact absurd hpq h2
        · exact .inr ⟨p, (memC p).2 (.inr (.inr (.inr hp))), hpq⟩
    · exact .inr ⟨_, (memC _).2 (.inl rfl), h⟩
    · exact .inr ⟨_, (memC _).2 (.inr (.inl rfl)), h⟩
  · rintro (⟨h, h1⟩ | ⟨p, hp', hpq⟩)
    · refine .inl ⟨(r2 q).2 (.inl ⟨h, fun p hp => h1 p ((memF p).2 (.inl hp))⟩), ?_, ?_, h1 _ ((memF _).2 (.inr rfl))⟩
      · intro h2
        cases hs with
        | side => exact h1 (c, vt, a, vb) (by simp [fanTets, pathEdges]) h2
        | @split _ l₃ d l₄ _ s₁ s₂ k1 k2 =>
          rcases hd (c, a) (by simp [triSides]) with h3 | h3
          · rcases List.mem_append.1 h3 with h3 | h3
            · rcases List.mem_append.1 h3 with h3 | h3
              · exact back_path nd1 _ h3
              · exact aR (mem_path h3).2
            · simp only [List.mem_singleton, Prod.mk.injEq, and_true] at h3
              exact hcb h3
          · exact h3 (tet_mem_edge hm h ((SameTet.mem h2 _).1 (by simp [list4])) ((SameTet.mem h2 _).1 (by simp [list4])) hac.symm)
      · intro h2
        cases ht with
        | side => exact h1 (b, vt, c, vb) (by simp [fanTets, pathEdges]) h2
        | @split _ l₃ d l₄ _ s₁ s₂ k1 k2 =>
          rcases hd (b, c) (by simp [triSides]) with h3 | h3
          · rcases List.mem_append.1 h3 with h3 | h3
            · rcases List.mem_append.1 h3 with h3 | h3
              · exact bL (mem_path h3).1
              · exact back_path nd2 _ h3
            · simp only [List.mem_singleton, Prod.mk.injEq, true_and] at h3
              exact hac h3.symm
          · exact h3 (tet_mem_edge hm h ((SameTet.mem h2 _).1 (by simp [list4])) ((SameTet.mem h2 _).1 (by simp [list4])) hcb.symm)
    · have np := pole p hp' q hpq
      have nsp : ¬ SameTet (c, vt, a, vb) q ∧ ¬ SameTet (b, vt, c, vb) q ∧ ¬ SameTet (a, vt, b, vb) q :=
        ⟨fun h => np (sP _ _ q h), fun h => np (sP _ _ q h), fun h => np (sP _ _ q h)⟩
      rcases (memC p).1 hp' with rfl | rfl | hp | hp
      · exact .inr (.inl hpq)
      · exact .inr (.inr hpq)
      · exact .inl ⟨(r2 q).2 (.inr (.inl ⟨p, List.mem_cons_of_mem _ hp, hpq⟩)), nsp⟩
      · exact .inl ⟨(r2 q).2 (.inr (.inr ⟨p, List.mem_cons_of_mem _ hp, hpq⟩)), nsp⟩

end Tet
