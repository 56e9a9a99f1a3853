import Verif.Model.Export
import Verif.Props.Mesh
import Verif.Proofs.IdMapHistory

/-!
# Spatial sorting (C44) and the debug export (C56)
-/

namespace Tet
open Spec

/-! ## C44 -/

/-- C44: sorting keeps every point with its value, exactly once, with its place in the input; the
points are in the order of their places on the curve, and those with the same place are in input
order.  Only the empty list is refused. -/
theorem C44_sort {P V K : Type} (key : List P → P → K) {le : K → K → Bool} (ht : ∀ a b c, le a b → le b c → le a c)
    (hl : ∀ a b, le a b || le b a) (points : List (P × V)) (h0 : points ≠ []) (hn : points.length ≤ 2 ^ 32) :
    ∃ l, hilbertSort key le points = some l ∧ l.length = points.length ∧ (l.map (·.1)).Nodup ∧
      (∀ i p v, (i, p, v) ∈ l ↔ points[i]? = some (p, v)) ∧
      l.Pairwise (fun x y => le (key (points.map (·.1)) x.2.1) (key (points.map (·.1)) y.2.1) ∧
        (le (key (points.map (·.1)) y.2.1) (key (points.map (·.1)) x.2.1) → x.1 < y.1)) := by
  unfold hilbertSort
  rw [if_neg h0]
  have e1 : (points.zipIdx.map fun x => (x.2 % 2 ^ 32, x.1)) = points.zipIdx.map fun x => (x.2, x.1) := by
    apply List.map_congr_left
    intro x hx
    obtain ⟨p, i⟩ := x
    have := List.mem_zipIdx_iff_getElem?.1 hx
    have := (List.getElem?_eq_some_iff.1 this).1
    simp only [Prod.mk.injEq, and_true]
    exact Nat.mod_eq_of_lt (by simp at this; omega)
  simp only [e1]
  generalize ht' : (points.zipIdx.map fun x => (x.2, x.1)) = tagged
  generalize hf : key (points.map (·.1)) = f
  have hmem : ∀ i p v, (i, p, v) ∈ tagged ↔ points[i]? = some (p, v) := by
    intro i p v
    rw [← ht']
    simp only [List.mem_map, Prod.mk.injEq, Prod.exists, List.mem_zipIdx_iff_getElem?]
    constructor
    · rintro ⟨a, b, j, h, rfl, rfl, rfl⟩; exact h
    · intro h; exact ⟨p, v, i, h, rfl, rfl, rfl⟩
  have hlt : tagged.Pairwise fun x y => x.1 < y.1 := by
    rw [← ht', List.pairwise_map, List.pairwise_iff_getElem]
    intro i j hi hj hij
    simpa using hij
  have hperm : (tagged.mergeSort fun x y => le (f x.2.1) (f y.2.1)).Perm tagged := List.mergeSort_perm _ _
  refine ⟨_, rfl, ?_, ?_, ?_, ?_⟩
  · rw [hperm.length_eq, ← ht']; simp
  · refine (hperm.map _).nodup_iff.2 ?_
    rw [List.Nodup, List.pairwise_map]
    exact hlt.imp fun h => h.ne
  · intro i p v
    rw [hperm.mem_iff, hmem]
  · rw [List.pairwise_iff_forall_sublist]
    intro x y hxy
    have hs : (tagged.mergeSort fun x y => le (f x.2.1) (f y.2.1)).Pairwise
        fun x y => le (f x.2.1) (f y.2.1) := by
      refine List.pairwise_mergeSort ?_ ?_ _
      · intro a b c; exact ht _ _ _
      · intro a b; exact hl _ _
    have hle := (List.pairwise_iff_forall_sublist.1 hs) hxy
    refine ⟨hle, fun hge => ?_⟩
    have hnd : (tagged.mergeSort fun x y => le (f x.2.1) (f y.2.1)).Nodup := by
      rw [hperm.nodup_iff]
      exact hlt.imp fun h => fun h' => by rw [h'] at h; exact lt_irrefl _ h
    have hne : x ≠ y := by
      rintro rfl
      have := List.pairwise_iff_forall_sublist.1 hnd hxy
      exact this rfl
    have hmx := hperm.mem_iff.1 (hxy.subset (show x ∈ [x, y] by simp))
    have hmy := hperm.mem_iff.1 (hxy.subset (show y ∈ [x, y] by simp))
    by_contra hc
    -- otherwise `y` is before `x` in the input, and stays before it
    have hyx : [y, x].Sublist tagged := by
      obtain ⟨i, hi, rfl⟩ := List.mem_iff_getElem.1 hmx
      obtain ⟨j, hj, rfl⟩ := List.mem_iff_getElem.1 hmy
      have hij : j < i := by
        rcases lt_trichotomy i j with h | h | h
        · exact absurd ((List.pairwise_iff_getElem.1 hlt) i j hi hj h) hc
        · subst h; exact absurd rfl hne
        · exact h
      have h1 : [tagged[j]].Sublist (tagged.take i) := by
        rw [List.singleton_sublist]
        exact List.mem_take_iff_getElem.2 ⟨j, by omega, rfl⟩
      have h2 : [tagged[i]].Sublist (tagged.drop i) := by
        rw [List.singleton_sublist, List.drop_eq_getElem_cons hi]
        exact List.mem_cons_self
      have := h1.append h2
      rwa [List.take_append_drop] at this
    have := List.sublist_mergeSort (le := fun x y : VId × P × V => le (f x.2.1) (f y.2.1)) (fun a b c => ht _ _ _)
      (fun a b => hl _ _) (by simpa using hge) hyx
    -- both orders are sublists of a list without repetitions
    have hno : ∀ (l : List (VId × P × V)), l.Nodup → ∀ x y, x ≠ y → [x, y].Sublist l → ¬ [y, x].Sublist l := by
      intro l hl x y hxy h1 h2
      have hx : [x].Sublist l := (List.sublist_cons_of_sublist _ (List.Sublist.refl [x])).trans h2
      induction l with
      | nil => cases h1
      | cons a l ih =>
        rw [List.nodup_cons] at hl
        rcases List.cons_sublist_cons'.1 h1 with h1 | ⟨rfl, h1⟩ <;>
        rcases List.cons_sublist_cons'.1 h2 with h2 | ⟨e, h2⟩
        · exact ih hl.2 h1 h2 ((List.sublist_cons_of_sublist _ (List.Sublist.refl [x])).trans h2)
        · exact hl.1 (e ▸ h1.subset (show y ∈ [x, y] by simp))
        · exact hl.1 (h2.subset (by simp))
        · exact hxy e.symm
    exact hno _ hnd x y hne hxy this

/-- C44: without points the source panics. -/
theorem C44_empty {P V K : Type} (key : List P → P → K) (le : K → K → Bool) :
    hilbertSort (V := V) key le [] = none := rfl

/-- The last two points have the same place. -/
example : hilbertSort (fun l p => (p - l.length) / 2) (fun a b => decide (a ≤ b)) [(9, 'a'), (5, 'b'), (7, 'c'), (6, 'd')] =
    some [(1, 5, 'b'), (2, 7, 'c'), (3, 6, 'd'), (0, 9, 'a')] := by
  simp [hilbertSort, List.zipIdx, List.mergeSort, List.MergeSort.Internal.splitInTwo]

/-! ## C56 -/

variable {P V T R : Type}

/-- No vertex of the tet is the ghost vertex. -/
def SolidTet (m : Mesh P V T) (k : TId) : Prop := ∀ e : Code, m.first ⟨k, e⟩ ≠ some GHOST

instance (m : Mesh P V T) (k : TId) : Decidable (SolidTet m k) := by unfold SolidTet; infer_instance

/-- C56: on a consistent mesh the export works.  For every tet without the ghost vertex it writes
four positions and four triangles; these are the triangles of the tet, in the orientation shown by the
walkers, and refer to the positions of this tet only. -/
theorem C56_export (round : P → R) {m : Mesh P V T} (hm : Consistent m) :
    ∃ pos polys, m.exportObj round = some (pos, polys) ∧
      pos.length = 4 * (m.tets.keys.filter (SolidTet m)).length ∧
      polys.length = 4 * (m.tets.keys.filter (SolidTet m)).length ∧
      ∀ (i : Nat) k, (m.tets.keys.filter (SolidTet m))[i]? = some k → ∀ j : Fin 4, ∃ a b c va vb vc x y z,
        polys[4 * i + (j : Nat)]? = some (a, b, c) ∧ a / 4 = i ∧ b / 4 = i ∧ c / 4 = i ∧
        m.tri ⟨k, ![3, 0, 1, 2] j⟩ = some (va, vb, vc) ∧
        m.vertices.get va = some x ∧ m.vertices.get vb = some y ∧ m.vertices.get vc = some z ∧
        pos[a]? = some (round x.position) ∧ pos[b]? = some (round y.position) ∧
        pos[c]? = some (round z.position) := by
  -- the exported tets
  have hsolid : ∀ k t, m.tets.get k = some t →
      ((!(decide (GHOST ∈ [t.vertices 0, t.vertices 1, t.vertices 2, t.vertices 3]))) = decide (SolidTet m k)) := by
    intro k t ht
    rw [Bool.eq_iff_iff]
    simp only [Bool.not_eq_true', decide_eq_false_iff_not, decide_eq_true_eq, SolidTet, Mesh.first, ht, Option.map_some,
      ne_eq, Option.some.injEq, List.mem_cons, List.not_mem_nil, or_false, not_or]
    constructor
    · rintro ⟨h0, h1, h2, h3⟩ e
      have : ∀ i : Fin 4, t.vertices i ≠ GHOST := by
        intro i; fin_cases i <;> simp_all [eq_comm]
      exact this _
    · intro h
      exact ⟨fun hc => h 3 hc.symm, fun hc => h 2 hc.symm, fun hc => h 1 hc.symm, fun hc => h 0 hc.symm⟩
  obtain ⟨L, hL1, hL2⟩ : ∃ L : List (TId × Tet T), (∀ x ∈ L, m.tets.get x.1 = some x.2 ∧ SolidTet m x.1) ∧
      m.solidTets = L.map (·.2) ∧ m.tets.keys.filter (SolidTet m) = L.map (·.1) := by
    refine ⟨m.tets.iter.filter fun x => SolidTet m x.1, ?_, ?_, ?_⟩
    · intro x hx
      rw [List.mem_filter, decide_eq_true_eq] at hx
      exact ⟨IdMapSpec.mem_iter.1 hx.1, hx.2⟩
    · rw [Mesh.solidTets, IdMap.values, List.filter_map]
      congr 1
      apply List.filter_congr
      intro x hx
      exact hsolid x.1 x.2 (IdMapSpec.mem_iter.1 hx)
    · rw [IdMap.keys, List.filter_map]
      rfl
  obtain ⟨hL2, hL3⟩ := hL2
  -- their vertices have positions
  have hpos : ∀ x ∈ L, ∀ j : Fin 4, ∃ y, m.vertices.get (x.2.vertices j) = some y := by
    intro x hx j
    obtain ⟨h1, h2⟩ := hL1 x hx
    have hc : ∃ e : Code, firstIdx e = j := by revert j; decide
    obtain ⟨e, rfl⟩ := hc
    have h3 : m.first ⟨x.1, e⟩ = some (x.2.vertices (firstIdx e)) := by simp [Mesh.first, h1, Tet.first]
    rcases hm.vertexLive _ _ h3 with h | ⟨y, h, -⟩
    · exact absurd (h3.trans (congrArg some h)) (h2 e)
    · exact ⟨y, h⟩
  have key : ∀ l : List (TId × Tet T), (∀ x ∈ l, ∀ j : Fin 4, ∃ y, m.vertices.get (x.2.vertices j) = some y) →
      ∃ pos, ((l.map (·.2)).flatMap fun t => [t.vertices 0, t.vertices 1, t.vertices 2, t.vertices 3]).mapM
        (fun v => (m.vertices.get v).bind fun x => some (round x.position)) = some pos ∧
        pos.length = 4 * l.length ∧ ∀ (i : Nat) k t, l[i]? = some (k, t) → ∀ j : Fin 4,
          pos[4 * i + (j : Nat)]? = (m.vertices.get (t.vertices j)).map fun x => round x.position := by
    intro l hl
    induction l with
    | nil => exact ⟨[], by simp⟩
    | cons x l ih =>
      obtain ⟨pos, h1, h2, h3⟩ := ih fun y hy => hl y (by simp [hy])
      obtain ⟨y0, g0⟩ := hl x (by simp) 0
      obtain ⟨y1, g1⟩ := hl x (by simp) 1
      obtain ⟨y2, g2⟩ := hl x (by simp) 2
      obtain ⟨y3, g3⟩ := hl x (by simp) 3
      refine ⟨round y0.position :: round y1.position :: round y2.position :: round y3.position :: pos, ?_, ?_, ?_⟩
      · simp only [List.map_cons, List.flatMap_cons, List.mapM_append, List.mapM_cons, List.mapM_nil, g0, g1, g2, g3,
          h1, Option.bind_eq_bind, Option.bind_some, Option.pure_def]
        rfl
      · simp [h2]; omega
      · intro i k t hi j
        cases i with
        | zero =>
          obtain rfl : x = (k, t) := by simpa using hi
          fin_cases j <;> simp [g0, g1, g2, g3]
        | succ i =>
          rw [← h3 i k t (by simpa using hi) j]
          rw [show 4 * (i + 1) + (j : Nat) = 4 * i + j + 1 + 1 + 1 + 1 from by omega]
          simp only [List.getElem?_cons_succ]
  obtain ⟨pos, h1, h2, h3⟩ := key L hpos
  have hpoly : ∀ (l : List (Tet T)) (n : Nat),
      ((l.zipIdx n).flatMap fun (_, i) =>
        [(4 * i + 0, 4 * i + 1, 4 * i + 2), (4 * i + 3, 4 * i + 2, 4 * i + 1),
          (4 * i + 2, 4 * i + 3, 4 * i + 0), (4 * i + 1, 4 * i + 0, 4 * i + 3)]).length = 4 * l.length ∧
      ∀ i < l.length, ∀ j : Fin 4, ((l.zipIdx n).flatMap fun (_, i) =>
        [(4 * i + 0, 4 * i + 1, 4 * i + 2), (4 * i + 3, 4 * i + 2, 4 * i + 1),
          (4 * i + 2, 4 * i + 3, 4 * i + 0), (4 * i + 1, 4 * i + 0, 4 * i + 3)])[4 * i + (j : Nat)]? =
        [(4 * (i + n) + 0, 4 * (i + n) + 1, 4 * (i + n) + 2), (4 * (i + n) + 3, 4 * (i + n) + 2, 4 * (i + n) + 1),
          (4 * (i + n) + 2, 4 * (i + n) + 3, 4 * (i + n) + 0), (4 * (i + n) + 1, 4 * (i + n) + 0, 4 * (i + n) + 3)][(j : Nat)]? := by
    intro l
    induction l with
    | nil => intro n; simp
    | cons t l ih =>
      intro n
      obtain ⟨k1, k2⟩ := ih (n + 1)
      refine ⟨?_, ?_⟩
      · rw [List.zipIdx_cons, List.flatMap_cons, List.length_append, k1]
        simp; omega
      · intro i hi j
        rw [List.zipIdx_cons, List.flatMap_cons]
        cases i with
        | zero => fin_cases j <;> simp
        | succ i =>
          rw [List.getElem?_append_right (by simp; omega)]
          have := k2 i (by simpa using hi) j
          rw [show i + (n + 1) = i + 1 + n from by omega] at this
          rw [← this]
          congr 1
          simp; omega
  obtain ⟨k1, k2⟩ := hpoly m.solidTets 0
  have hlen : m.solidTets.length = L.length := by rw [hL2]; simp
  refine ⟨pos, (m.solidTets.zipIdx.flatMap fun (_, i) =>
      [(4 * i + 0, 4 * i + 1, 4 * i + 2), (4 * i + 3, 4 * i + 2, 4 * i + 1),
        (4 * i + 2, 4 * i + 3, 4 * i + 0), (4 * i + 1, 4 * i + 0, 4 * i + 3)]), ?_, ?_, ?_, ?_⟩
  · unfold Mesh.exportObj
    rw [hL2]
    simp only [Option.bind_eq_bind, Option.pure_def]
    rw [h1]
    rfl
  · rw [h2, hL3]; simp
  · rw [k1, hlen, hL3]; simp
  · intro i k hik j
    rw [hL3, List.getElem?_map, Option.map_eq_some_iff] at hik
    obtain ⟨⟨k', t⟩, hx, rfl⟩ := hik
    have hi : i < m.solidTets.length := by rw [hlen]; exact (List.getElem?_eq_some_iff.1 hx).1
    have hmem := List.mem_of_getElem? hx
    obtain ⟨ht, -⟩ := hL1 _ hmem
    obtain ⟨y0, g0⟩ := hpos _ hmem 0
    obtain ⟨y1, g1⟩ := hpos _ hmem 1
    obtain ⟨y2, g2⟩ := hpos _ hmem 2
    obtain ⟨y3, g3⟩ := hpos _ hmem 3
    have p0 := h3 i k' t hx 0
    have p1 := h3 i k' t hx 1
    have p2 := h3 i k' t hx 2
    have p3 := h3 i k' t hx 3
    simp only at ht g0 g1 g2 g3
    rw [g0] at p0
    rw [g1] at p1
    rw [g2] at p2
    rw [g3] at p3
    rw [k2 i hi j]
    simp only [Nat.add_zero]
    fin_cases j
    · exact ⟨4 * i + 0, 4 * i + 1, 4 * i + 2, _, _, _, y0, y1, y2, rfl, by omega, by omega, by omega,
        by simp only [Mesh.tri, ht]; rfl, g0, g1, g2, p0, p1, p2⟩
    · exact ⟨4 * i + 3, 4 * i + 2, 4 * i + 1, _, _, _, y3, y2, y1, rfl, by omega, by omega, by omega,
        by simp only [Mesh.tri, ht]; rfl, g3, g2, g1, p3, p2, p1⟩
    · exact ⟨4 * i + 2, 4 * i + 3, 4 * i + 0, _, _, _, y2, y3, y0, rfl, by omega, by omega, by omega,
        by simp only [Mesh.tri, ht]; rfl, g2, g3, g0, p2, p3, p0⟩
    · exact ⟨4 * i + 1, 4 * i + 0, 4 * i + 3, _, _, _, y1, y0, y3, rfl, by omega, by omega, by omega,
        by simp only [Mesh.tri, ht]; rfl, g1, g0, g3, p1, p0, p3⟩

/-- The mesh of four points: one solid tet, four ghost tets. -/
example : ∃ m, five = some m ∧ Consistent m ∧ m.tets.keys.length = 5 ∧
    m.exportObj (fun x => x * 100) =
      some ([1000, 1100, 1200, 1300], [(0, 1, 2), (3, 2, 1), (2, 3, 0), (1, 0, 3)]) := by
  obtain ⟨m, h1, h2⟩ := five_ok
  have h3 : (five.map fun m => m.tets.keys.length) = some 5 := by decide +kernel
  have h4 : (five.bind fun m => m.exportObj fun x => x * 100) =
      some ([1000, 1100, 1200, 1300], [(0, 1, 2), (3, 2, 1), (2, 3, 0), (1, 0, 3)]) := by decide +kernel
  rw [h1] at h3 h4
  exact ⟨m, h1, h2, Option.some.inj h3, h4⟩

end Tet
