import Verif.Props.Mesh

/-!
# The flips (C18-C22)

`m.numTets = some nT` and the like only say that there are ids left.
-/

namespace Tet
open Spec
variable {P V T : Type}

theorem numTets_eq {m : Mesh P V T} (hm : ConsistentT m) {n} (h : m.numTets = some n) :
    m.tets.size = n := by
  have := hm.stored.2.2.len_eq
  rw [Mesh.numTets, this] at h
  simpa using h

theorem numEdges_eq {m : Mesh P V T} (hm : ConsistentT m) {n} (h : m.numEdges = some n) :
    m.edges.size = n := by
  have := hm.stored.2.1.len_eq
  rw [Mesh.numEdges, this] at h
  simpa using h

theorem numTets_of {m : Mesh P V T} (hm : ConsistentT m) {n} (h : m.tets.size = n) :
    m.numTets = some n := hm.stored.2.2.len_eq.trans (by rw [h])

theorem numEdges_of {m : Mesh P V T} (hm : ConsistentT m) {n} (h : m.edges.size = n) :
    m.numEdges = some n := hm.stored.2.1.len_eq.trans (by rw [h])

/-! ## Meshes for the examples -/

/-- `five` with a fifth vertex, not yet in a tet. -/
def six : Option (Mesh Nat Nat Unit) := five.bind fun m =>
  (m.vertices.insert (Vertex.new invalidWalker 14 4)).map fun r => { m with vertices := r.1 }

/-- `six` after flipping the vertex into tet 0. -/
def eight : Option (Mesh Nat Nat Unit) := six.bind fun m =>
  (m.flip14Unchecked (Mesh.walkerFromTetId 0) 4).map (·.1)

/-- `eight` after a 2-to-3 flip joining vertex 4 and the ghost vertex. -/
def nine : Option (Mesh Nat Nat Unit) := eight.bind fun m => (m.flip23Unchecked ⟨0, 0⟩).map (·.1)

def noVertex (m : Mesh P V T) (v : VId) : Bool :=
  m.tets.keys.all fun k => (m.tets.get k).all fun t => decide (∀ i, t.vertices i ≠ v)

def noEdge (m : Mesh P V T) (a b : VId) : Bool :=
  m.edges.keys.all fun k => (m.edges.get k).all fun e => decide (e.vertices ≠ (min a b, max a b))

def noTri (m : Mesh P V T) (s : V3) : Bool :=
  m.tets.keys.all fun k => (m.tets.get k).all fun t => decide (∀ c, t.tri c ≠ s)

theorem first_of_check {m : Mesh P V T} {v : VId} (h : noVertex m v = true) :
    ∀ w, m.first w ≠ some v := by
  intro w hw
  unfold noVertex at h
  simp only [Mesh.first, Option.map_eq_some_iff] at hw
  obtain ⟨t, ht, he⟩ := hw
  rw [List.all_eq_true] at h
  have h1 := h w.tet (IdMap.mem_keys.2 (Option.isSome_iff_exists.2 ⟨t, ht⟩))
  rw [ht, Option.all_some, decide_eq_true_iff] at h1
  exact h1 _ he

theorem edge_of_check {m : Mesh P V T} {a b : VId} (h : noEdge m a b = true) : ¬ HasEdge m a b := by
  unfold noEdge at h
  rintro ⟨e, ue, h1, h2⟩
  rw [List.all_eq_true] at h
  have h3 := h e (IdMap.mem_keys.2 (Option.isSome_iff_exists.2 ⟨ue, h1⟩))
  rw [h1, Option.all_some, decide_eq_true_iff] at h3
  exact h3 h2

theorem tri_of_check {m : Mesh P V T} {s : V3} (h : noTri m s = true) : ¬ HasTri m s := by
  unfold noTri at h
  rintro ⟨w, hw⟩
  simp only [Mesh.tri, Option.map_eq_some_iff] at hw
  obtain ⟨t, ht, he⟩ := hw
  rw [List.all_eq_true] at h
  have h1 := h w.tet (IdMap.mem_keys.2 (Option.isSome_iff_exists.2 ⟨t, ht⟩))
  rw [ht, Option.all_some, decide_eq_true_iff] at h1
  exact h1 _ he

theorem of_bind {α β : Type} {o : Option α} {f : α → Option β} {b} {a : α} (h : o = some a)
    (hb : o.bind f = some b) : f a = some b := by rw [h] at hb; exact hb

theorem of_map {α β : Type} {o : Option α} {f : α → β} {b} {a : α} (h : o = some a)
    (hb : o.map f = some b) : f a = b := by rw [h] at hb; exact Option.some.inj hb

theorem six_ok : ∃ m, six = some m ∧ Consistent m := by
  obtain ⟨m, h1, h2⟩ := five_ok
  have h3 : (five.bind fun m => m.vertices.insert (Vertex.new invalidWalker 14 4)).isSome = true := by
    decide +kernel
  rw [h1, Option.bind_some] at h3
  obtain ⟨⟨vs, v⟩, h4⟩ := Option.isSome_iff_exists.1 h3
  exact ⟨{ m with vertices := vs }, by rw [six, h1, Option.bind_some, h4]; rfl, (h2.toT.addVertex h4).1.toSpec⟩

/-! ## C18 -/

/-- Flipping a vertex into a tet: it does not fail, the mesh stays consistent, exactly that tet
is replaced by the four tets that have the new vertex in place of one corner, exactly the
edges from the new vertex to the corners are added, and the returned walkers show the four
old triangles with the new vertex opposite. -/
theorem C18_flip14 {m : Mesh P V T} (hm : Consistent m) {k : TId} {v a b c d : VId} {nT nE : Nat}
    (hk : m.tet4 (Mesh.walkerFromTetId k) = some (a, b, c, d)) (hv : m.vertices.get v ≠ none)
    (hno : ∀ w, m.first w ≠ some v) (hT : m.numTets = some nT) (hE : m.numEdges = some nE)
    (roomT : nT + 3 ≤ idMax) (roomE : nE + 4 ≤ idMax) :
    ∃ m' r0 r1 r2 r3, m.flip14Unchecked (Mesh.walkerFromTetId k) v = some (m', [r0, r1, r2, r3]) ∧
      Consistent m' ∧
      Replaces m m' [(a, b, c, d)] [(v, b, c, d), (a, v, c, d), (a, b, v, d), (a, b, c, v)] ∧
      (∀ u u', HasEdge m' u u' ↔
        HasEdge m u u' ∨ (u = v ∧ u' ∈ [a, b, c, d]) ∨ (u' = v ∧ u ∈ [a, b, c, d])) ∧
      m'.tet4 r0 = some (d, c, b, v) ∧ m'.tet4 r1 = some (c, d, a, v) ∧
      m'.tet4 r2 = some (b, a, d, v) ∧ m'.tet4 r3 = some (a, b, c, v) ∧
      m'.numTets = some (nT + 3) ∧ m'.numEdges = some (nE + 4) := by
  have hc := hm.toT
  have sT := numTets_eq hc hT
  have sE := numEdges_eq hc hE
  obtain ⟨m', id1, id2, id3, h1, -, -, F, ⟨t0, t1, t2, t3, h2, g0, g1, g2, g3⟩, h4, h5, h6⟩ :=
    flip14_sem hc (w := Mesh.walkerFromTetId k) hk rfl
      (Option.ne_none_iff_exists'.1 hv) hno (by omega) (by omega)
  have h2' : m.tet4 (Mesh.walkerFromTetId k) = _ := h2
  rw [hk] at h2'
  obtain ⟨rfl, rfl, rfl, rfl⟩ : a = t0 ∧ b = t1 ∧ c = t2 ∧ d = t3 := by simpa using h2'
  exact ⟨m', _, _, _, _, h1, F.cons.toSpec, F.rep, h4, tet4_code g0 0, tet4_code g1 1,
    tet4_code g2 2, tet4_code g3 3, numTets_of F.cons (by omega), numEdges_of F.cons (by omega)⟩

/-- All hypotheses hold for tet 0 and vertex 4 of `six`. -/
theorem eight_ok : ∃ m, eight = some m ∧ Consistent m := by
  obtain ⟨m, h1, h2⟩ := six_ok
  obtain ⟨m', _, _, _, _, h3, h4, -⟩ := C18_flip14 h2 (k := 0) (v := 4)
    (of_map (f := fun m => m.tet4 (Mesh.walkerFromTetId 0)) (b := some (0, 1, 2, 3)) h1 (by decide +kernel))
    (fun h => by
      have := of_map (f := fun m => (m.vertices.get 4).isSome) (b := true) h1 (by decide +kernel)
      simp [h] at this)
    (first_of_check (of_map (f := fun m => noVertex m 4) h1 (by decide +kernel)))
    (of_map (f := fun m => m.numTets) (b := some 5) h1 (by decide +kernel))
    (of_map (f := fun m => m.numEdges) (b := some 10) h1 (by decide +kernel)) (by decide) (by decide)
  exact ⟨m', by rw [eight, h1, Option.bind_some, h3]; rfl, h4⟩

/-- The source also accepts other walkers of the tet (`flip14_unchecked` is a method of any
walker), but then the new vertex is left with a walker that does not start at it: for the nine
walkers that do not start at the first stored vertex the result is never consistent. -/
theorem C18_other_walkers_break {m : Mesh P V T} (hm : Consistent m) {w : Walker} {v : VId}
    {nT nE : Nat} (hw : Live m w) (hfirst : m.first w ≠ m.first (Mesh.walkerFromTetId w.tet))
    (hv : m.vertices.get v ≠ none) (hno : ∀ w, m.first w ≠ some v)
    (hT : m.numTets = some nT) (hE : m.numEdges = some nE)
    (roomT : nT + 3 ≤ idMax) (roomE : nE + 4 ≤ idMax) :
    ∃ m' ws, m.flip14Unchecked w v = some (m', ws) ∧ ¬ Consistent m' := by
  have hc := hm.toT
  obtain ⟨t, ht⟩ := Option.isSome_iff_exists.1 hw
  have hp : Pre14 m w.tet v t := ⟨ht, Option.ne_none_iff_exists'.1 hv,
    by have := numTets_eq hc hT; omega, by have := numEdges_eq hc hE; omega⟩
  obtain ⟨m', id1, id2, id3, e0, e1, e2, e3, hx, hq⟩ := flip14_exec hc hp
  refine ⟨m', _, hx, fun hm' => ?_⟩
  have hnv : ∀ i, t.vertices i ≠ v := by
    intro i hi
    have : ∀ i, ∃ c, firstIdx c = i := by decide
    obtain ⟨c, hc⟩ := this i
    refine hno ⟨w.tet, c⟩ ?_
    simp only [Mesh.first, ht, Option.map_some, Tet.first, hc, hi]
  obtain ⟨x, hxv⟩ := Option.ne_none_iff_exists'.1 hv
  have hvs : m'.vertices.get v = some { x with tet := w } := by
    rw [hq.rest]
    simp only [setTets, List.foldl, IdMap.get_modify]
    rw [if_neg (hnv 3).symm, if_neg (hnv 2).symm, if_neg (hnv 1).symm, if_neg (hnv 0).symm,
      if_pos trivial, hxv, Option.map_some]
  rcases hm'.vertexRef v _ hvs with h | h
  · exact absurd (hc.stored.2.2.lt_max ht) (by simp only at h; rw [h]; exact lt_irrefl _)
  · simp only [Mesh.first, hq.get, if_true, Option.map_some, Option.some.injEq, Tet.first] at h
    simp only [Mesh.first, ht, Mesh.walkerFromTetId, Option.map_some, Tet.first, ne_eq,
      Option.some.injEq] at hfirst
    have h3 : firstIdx 3 = 0 := rfl
    rw [h3] at hfirst
    have hne : firstIdx w.edge ≠ 0 := fun he => hfirst (by rw [he])
    revert h
    rcases fin4 (firstIdx w.edge) with he | he | he | he <;> rw [he] at hne ⊢
    · exact absurd rfl hne
    · exact hnv 1
    · exact hnv 2
    · exact hnv 3

/-- For instance with walker 0 of tet 0, which starts at the last vertex. -/
example : ∃ m m' ws, six = some m ∧ Consistent m ∧ m.flip14Unchecked ⟨0, 0⟩ 4 = some (m', ws) ∧
    ¬ Consistent m' := by
  obtain ⟨m, h1, h2⟩ := six_ok
  obtain ⟨m', ws, h3, h4⟩ := C18_other_walkers_break h2 (w := ⟨0, 0⟩) (v := 4)
    (show (m.tets.get 0).isSome = true from
      of_map (f := fun m => (m.tets.get 0).isSome) (b := true) h1 (by decide +kernel))
    (fun h => by
      have := of_map (f := fun m => decide (m.first ⟨0, 0⟩ = m.first ⟨0, 3⟩)) (b := false) h1 (by decide +kernel)
      exact of_decide_eq_false this h)
    (fun h => by
      have := of_map (f := fun m => (m.vertices.get 4).isSome) (b := true) h1 (by decide +kernel)
      simp [h] at this)
    (first_of_check (of_map (f := fun m => noVertex m 4) h1 (by decide +kernel)))
    (of_map (f := fun m => m.numTets) (b := some 5) h1 (by decide +kernel))
    (of_map (f := fun m => m.numEdges) (b := some 10) h1 (by decide +kernel)) (by decide) (by decide)
  exact ⟨m, m', ws, h1, h2, h3, h4⟩

/-! ## C19 -/

/-- The 2-to-3 flip of the current triangle.  `d` and `e` are the opposite vertices. -/
theorem C19_flip23 {m : Mesh P V T} (hm : Consistent m) {w o : Walker} {a b c d e : VId} {nT nE : Nat}
    (hw : m.tet4 w = some (a, b, c, d)) (ho : m.toAdj w = some o) (hf : m.fourth o = some e)
    (hne : d ≠ e) (hno : ¬ HasEdge m d e)
    (hT : m.numTets = some nT) (hE : m.numEdges = some nE) (roomT : nT < idMax) (roomE : nE < idMax) :
    ∃ m' r0 r1 r2, m.flip23Unchecked w = some (m', [r0, r1, r2]) ∧ Consistent m' ∧
      Replaces m m' [(a, b, c, d), (b, a, c, e)] [(b, a, d, e), (a, c, d, e), (c, b, d, e)] ∧
      (∀ u u', HasEdge m' u u' ↔ HasEdge m u u' ∨ (u, u') = (d, e) ∨ (u, u') = (e, d)) ∧
      m'.tet4 r0 = some (a, b, e, d) ∧ m'.tet4 r1 = some (c, a, e, d) ∧
      m'.tet4 r2 = some (b, c, e, d) ∧
      m'.numTets = some (nT + 1) ∧ m'.numEdges = some (nE + 1) := by
  have hc := hm.toT
  obtain ⟨m', id2, h1, -, -, -, -, F, g0, g1, g2, ⟨eid, h2, h3⟩, h4, h5⟩ := flip23_sem hc hw ho hf hne hno
    (by rw [numTets_eq hc hT]; exact roomT) (by rw [numEdges_eq hc hE]; exact roomE)
  exact ⟨m', _, _, _, h1, F.cons.toSpec, F.rep, hasEdge_insert h2 h3, tet4_code g0 2, tet4_code g1 2,
    tet4_code g2 2, numTets_of F.cons (by rw [h4, numTets_eq hc hT]),
    numEdges_of F.cons (by rw [h5, numEdges_eq hc hE])⟩

/-- All hypotheses hold for walker 0 of tet 0 of `eight`. -/
theorem nine_ok : ∃ m, nine = some m ∧ Consistent m := by
  obtain ⟨m, h1, h2⟩ := eight_ok
  obtain ⟨m', _, _, _, h3, h4, -⟩ := C19_flip23 h2 (w := ⟨0, 0⟩) (o := ⟨1, 7⟩)
    (of_map (f := fun m => m.tet4 ⟨0, 0⟩) (b := some (3, 2, 1, 4)) h1 (by decide +kernel))
    (of_map (f := fun m => m.toAdj ⟨0, 0⟩) h1 (by decide +kernel))
    (of_map (f := fun m => m.fourth ⟨1, 7⟩) (b := some GHOST) h1 (by decide +kernel)) (by decide)
    (edge_of_check (of_map (f := fun m => noEdge m 4 GHOST) h1 (by decide +kernel)))
    (of_map (f := fun m => m.numTets) (b := some 8) h1 (by decide +kernel))
    (of_map (f := fun m => m.numEdges) (b := some 14) h1 (by decide +kernel)) (by decide) (by decide)
  exact ⟨m', by rw [nine, h1, Option.bind_some, h3]; rfl, h4⟩

/-! ## C20 -/

/-- The 3-to-2 flip of the current edge, whose ring has three tets.  The triangle it creates
must not be in the mesh yet. -/
theorem C20_flip32 {m : Mesh P V T} (hm : Consistent m) {w o1 o2 : Walker} {x y c d e : VId} {nT nE : Nat}
    (hw : m.tet4 w = some (x, y, c, d)) (s1 : m.ringStep w = some o1) (s2 : m.ringStep o1 = some o2)
    (s3 : m.ringStep o2 = some w) (hf : m.fourth o1 = some e) (hno : ¬ HasTri m (d, c, e))
    (hT : m.numTets = some nT) (hE : m.numEdges = some nE) :
    ∃ m' r0 r1, m.flip32Unchecked w = some (m', [r0, r1]) ∧ Consistent m' ∧
      Replaces m m' [(x, y, c, d), (x, y, d, e), (x, y, e, c)] [(d, c, e, x), (c, d, e, y)] ∧
      (∀ u u', HasEdge m' u u' ↔ HasEdge m u u' ∧ (u, u') ≠ (x, y) ∧ (u, u') ≠ (y, x)) ∧
      m'.tet4 r0 = some (x, c, d, e) ∧ m'.tet4 r1 = some (y, d, c, e) ∧
      (∃ n, nT = n + 1 ∧ m'.numTets = some n) ∧ ∃ n, nE = n + 1 ∧ m'.numEdges = some n := by
  have hc := hm.toT
  obtain ⟨m', h1, -, -, -, -, -, F, g0, g1, -, ⟨e0, ue0, h2, h3, h4⟩, h5, h6⟩ :=
    flip32_sem hc hw s1 s2 s3 hf hno
  exact ⟨m', _, _, h1, F.cons.toSpec, F.rep, hasEdge_remove hc.eunique h2 h3 h4, tet4_code g0 10,
    tet4_code g1 10, ⟨_, (by rw [h5, numTets_eq hc hT]), numTets_of F.cons rfl⟩,
    ⟨_, (by rw [h6, numEdges_eq hc hE]), numEdges_of F.cons rfl⟩⟩

/-- All hypotheses hold for walker 0 of tet 0 of `nine`. -/
example : ∃ m m' ws, nine = some m ∧ m.flip32Unchecked ⟨0, 0⟩ = some (m', ws) ∧ Consistent m' := by
  obtain ⟨m, h1, h2⟩ := nine_ok
  obtain ⟨m', _, _, h3, h4, -⟩ := C20_flip32 h2 (w := ⟨0, 0⟩) (o1 := ⟨8, 0⟩) (o2 := ⟨1, 0⟩) (e := 1) (nT := 9)
    (nE := 15) (x := GHOST) (y := 4) (c := 3) (d := 2)
    (of_map (f := fun m => m.tet4 ⟨0, 0⟩) h1 (by decide +kernel))
    (of_map (f := fun m => m.ringStep ⟨0, 0⟩) h1 (by decide +kernel))
    (of_map (f := fun m => m.ringStep ⟨8, 0⟩) h1 (by decide +kernel))
    (of_map (f := fun m => m.ringStep ⟨1, 0⟩) h1 (by decide +kernel))
    (of_map (f := fun m => m.fourth ⟨8, 0⟩) h1 (by decide +kernel))
    (tri_of_check (of_map (f := fun m => noTri m (2, 3, 1)) h1 (by decide +kernel)))
    (of_map (f := fun m => m.numTets) h1 (by decide +kernel))
    (of_map (f := fun m => m.numEdges) h1 (by decide +kernel))
  exact ⟨m, m', _, h1, h3, h4⟩

/-! ## C21 -/

theorem edge_position {x y p q d e z1 z2 : VId} {co : Code} (hne : d ≠ e) (e1 : z1 ≠ d) (e2 : z1 ≠ e)
    (e3 : z2 ≠ d) (e4 : z2 ≠ e) (hxy : (x, y) = (d, e) ∨ (x, y) = (e, d))
    (h : (x, y, p, q) = (quad (z1, z2, d, e) (perms co 0), quad (z1, z2, d, e) (perms co 1),
        quad (z1, z2, d, e) (perms co 2), quad (z1, z2, d, e) (perms co 3))) :
    (x, y, p, q) = (d, e, z1, z2) ∨ (x, y, p, q) = (e, d, z2, z1) := by
  have d1 : ∀ co, perms co 0 = 2 → perms co 1 = 3 → perms co 2 = 0 ∧ perms co 3 = 1 := by decide
  have d2 : ∀ co, perms co 0 = 3 → perms co 1 = 2 → perms co 2 = 1 ∧ perms co 3 = 0 := by decide
  have hd : ∀ i, d = quad (z1, z2, d, e) i → i = 2 := by
    intro i hi
    rcases fin4 i with rfl | rfl | rfl | rfl
    · exact absurd hi.symm e1
    · exact absurd hi.symm e3
    · rfl
    · exact absurd hi hne
  have he : ∀ i, e = quad (z1, z2, d, e) i → i = 3 := by
    intro i hi
    rcases fin4 i with rfl | rfl | rfl | rfl
    · exact absurd hi.symm e2
    · exact absurd hi.symm e4
    · exact absurd hi.symm hne
    · rfl
  simp only [Prod.mk.injEq] at h hxy
  obtain ⟨h0, h1, h2, h3⟩ := h
  rcases hxy with ⟨rfl, rfl⟩ | ⟨rfl, rfl⟩
  · obtain ⟨k2, k3⟩ := d1 co (hd _ h0) (he _ h1)
    rw [k2] at h2
    rw [k3] at h3
    exact .inl (by rw [h2, h3]; rfl)
  · obtain ⟨k2, k3⟩ := d2 co (he _ h0) (hd _ h1)
    rw [k2] at h2
    rw [k3] at h3
    exact .inr (by rw [h2, h3]; rfl)

set_option maxHeartbeats 1000000 in
/-- After a 2-to-3 flip, a 3-to-2 flip at the new edge, with any walker on it in either
direction, gives back the tets and edges the mesh had before. -/
theorem C21_flip32_undoes_flip23 {m : Mesh P V T} (hm : Consistent m) {w o : Walker}
    {a b c d e : VId} {nT nE : Nat}
    (hw : m.tet4 w = some (a, b, c, d)) (ho : m.toAdj w = some o) (hf : m.fourth o = some e)
    (hne : d ≠ e) (hno : ¬ HasEdge m d e)
    (hT : m.numTets = some nT) (hE : m.numEdges = some nE) (roomT : nT < idMax) (roomE : nE < idMax) :
    ∃ m' ws, m.flip23Unchecked w = some (m', ws) ∧
      ∀ w', m'.edge w' = some (d, e) ∨ m'.edge w' = some (e, d) →
        ∃ m'' ws', m'.flip32Unchecked w' = some (m'', ws') ∧ Consistent m'' ∧
          (∀ q, HasTet m'' q ↔ HasTet m q) ∧ (∀ u u', HasEdge m'' u u' ↔ HasEdge m u u') ∧
          m''.numTets = some nT ∧ m''.numEdges = some nE := by
  have hc := hm.toT
  obtain ⟨m', r0, r1, r2, h1, hm', rep, edges, -, -, -, nT', nE'⟩ :=
    C19_flip23 hm hw ho hf hne hno hT hE roomT roomE
  refine ⟨m', _, h1, ?_⟩
  have hc' := hm'.toT
  have rep' := rep.2
  have oldT : ∀ p ∈ [(a, b, c, d), (b, a, c, e)], HasTet m p := rep.1
  obtain ⟨ab, ac, ad, bc, bd, cd⟩ := hc.ne4 hw
  obtain ⟨w2, hw2⟩ := oldT (b, a, c, e) (by simp)
  obtain ⟨-, -, be, -, ae, ce⟩ := hc.ne4 hw2
  -- the tets at the new edge
  have new : ∀ p ∈ [(b, a, d, e), (a, c, d, e), (c, b, d, e)], HasTet m' p := fun p hp =>
    (rep' p).2 (.inr ⟨p, hp, EvenRearr.refl _⟩)
  have nonew : ∀ q, HasTet m q → ∀ p ∈ [(b, a, d, e), (a, c, d, e), (c, b, d, e)], ¬ SameTet p q := by
    intro q hq p hp hs
    refine hno (hc.hasEdge_tet.2 ?_)
    have hq' := HasTet.same hq (SameTet.symm' hs)
    simp only [List.mem_cons, List.not_mem_nil, or_false] at hp
    rcases hp with rfl | rfl | rfl
    · exact ⟨_, _, HasTet.same hq' (sameTet_code 1 rfl)⟩
    · exact ⟨_, _, HasTet.same hq' (sameTet_code 1 rfl)⟩
    · exact ⟨_, _, HasTet.same hq' (sameTet_code 1 rfl)⟩
  -- the old triangle is gone
  have two : ∀ x y z, [x, y, z].Perm [a, b, c] → ∀ p ∈ [(b, a, d, e), (a, c, d, e), (c, b, d, e)],
      ∀ u, ¬ SameTet p (x, y, z, u) := by
    intro x y z hperm p hp u hs
    have hmem : ∀ t ∈ [a, b, c], t ∈ list4 p := by
      intro t ht
      rw [SameTet.mem hs]
      have := hperm.mem_iff.2 ht
      simp only [list4, List.mem_cons, List.not_mem_nil, or_false] at this ⊢
      rcases this with h | h | h <;> simp [h]
    have ma := hmem a (by simp)
    have mb := hmem b (by simp)
    have mc := hmem c (by simp)
    have _ := ab.symm
    have _ := ac.symm
    have _ := bc.symm
    simp only [List.mem_cons, List.not_mem_nil, or_false] at hp
    rcases hp with rfl | rfl | rfl <;> simp [list4] at ma mb mc <;> simp_all
  have gone : ∀ x y z, [x, y, z].Perm [a, b, c] → (∃ u, HasTet m (x, y, z, u) ∧
      ∃ p ∈ [(a, b, c, d), (b, a, c, e)], SameTet p (x, y, z, u)) → ¬ HasTri m' (x, y, z) := by
    rintro x y z hperm ⟨u, hu, p, hp, hs⟩ htri
    obtain ⟨u', hu'⟩ := hasTri_iff.1 htri
    rcases (rep' _).1 hu' with ⟨h2, h3⟩ | ⟨p', hp', h2⟩
    · obtain ⟨k, hk⟩ := h2
      obtain ⟨k', hk'⟩ := hu
      have := hc.tri_eq (tet4_parts hk).2.2.2 (tet4_parts hk').2.2.2
      rw [this, hk'] at hk
      obtain rfl : u = u' := by simpa using hk
      exact h3 p hp hs
    · exact two x y z hperm p' hp' _ h2
  -- flipping back with a walker in a standard position
  have back : ∀ (w' : Walker) (x y p q r : VId), m'.tet4 w' = some (x, y, p, q) → HasTet m' (x, y, q, r) →
      HasTet m' (x, y, r, p) → ¬ HasTri m' (q, p, r) →
      (∀ t, (∃ s ∈ [(x, y, p, q), (x, y, q, r), (x, y, r, p)], SameTet s t) ↔
        ∃ s ∈ [(b, a, d, e), (a, c, d, e), (c, b, d, e)], SameTet s t) →
      (∀ t, (∃ s ∈ [(q, p, r, x), (p, q, r, y)], SameTet s t) ↔
        ∃ s ∈ [(a, b, c, d), (b, a, c, e)], SameTet s t) →
      ∃ m'' ws', m'.flip32Unchecked w' = some (m'', ws') ∧ Consistent m'' ∧
          (∀ q, HasTet m'' q ↔ HasTet m q) ∧ (∀ u u', HasEdge m'' u u' ↔ HasEdge m u u') ∧
          m''.numTets = some nT ∧ m''.numEdges = some nE := by
    rintro w' x y p q r k0 ⟨w1, k1⟩ ⟨w2, k2⟩ ht eq1 eq2
    obtain ⟨m'', r0, r1, g1, g2, g3, -, -, -, ⟨n, g5, g6⟩, ⟨n', g7, g8⟩⟩ := C20_flip32 hm' k0
      (hc'.ringStep_of k0 k1) (hc'.ringStep_of k1 k2) (hc'.ringStep_of k2 k0) (tet4_parts k1).2.1 ht nT' nE'
    have hsame : ∀ t, HasTet m'' t ↔ HasTet m t := by
      intro t
      have h3 : (∀ s ∈ [(x, y, p, q), (x, y, q, r), (x, y, r, p)], ¬ SameTet s t) ↔
          ¬ ∃ s ∈ [(b, a, d, e), (a, c, d, e), (c, b, d, e)], SameTet s t := by
        rw [← eq1]; push Not; rfl
      rw [g3.2, rep', eq2, h3]
      constructor
      · rintro (⟨⟨h4, -⟩ | h4, h5⟩ | ⟨s, hs, h4⟩)
        · exact h4
        · exact absurd h4 h5
        · exact HasTet.same (oldT s hs) h4
      · intro h4
        by_cases h5 : ∃ s ∈ [(a, b, c, d), (b, a, c, e)], SameTet s t
        · exact .inr h5
        · refine .inl ⟨.inl ⟨h4, fun s hs h6 => h5 ⟨s, hs, h6⟩⟩, ?_⟩
          rintro ⟨s, hs, h6⟩
          exact nonew t h4 s hs h6
    refine ⟨m'', _, g1, g2, hsame, ?_, ?_, ?_⟩
    · intro u u'
      rw [g2.toT.hasEdge_tet, hc.hasEdge_tet]
      simp only [hsame]
    · rw [g6]; congr 1; omega
    · rw [g8]; congr 1; omega
  -- bring the walker into standard position
  have cong : ∀ {p q : V4} (c : Code), q = (quad p (perms c 0), quad p (perms c 1), quad p (perms c 2),
      quad p (perms c 3)) → ∀ t, SameTet q t ↔ SameTet p t :=
    fun c h t => (sameTet_congr (sameTet_code c h) t).symm
  have hN : ∀ {p q : V4} (c : Code), HasTet m' p → q = (quad p (perms c 0), quad p (perms c 1),
      quad p (perms c 2), quad p (perms c 3)) → HasTet m' q := fun c h hq => HasTet.same h (sameTet_code c hq)
  have n0 := new (b, a, d, e) (by simp)
  have n1 := new (a, c, d, e) (by simp)
  have n2 := new (c, b, d, e) (by simp)
  have T1 : ¬ HasTri m' (a, b, c) := gone a b c (.refl _)
    ⟨d, ⟨w, hw⟩, _, List.mem_cons_self, EvenRearr.refl _⟩
  have T2 : ¬ HasTri m' (b, a, c) := gone b a c (List.Perm.swap a b [c])
    ⟨e, ⟨w2, hw2⟩, _, List.mem_cons_of_mem _ List.mem_cons_self, EvenRearr.refl _⟩
  have rot : ∀ {x y z}, HasTri m' (x, y, z) → HasTri m' (y, z, x) := by
    intro x y z h
    obtain ⟨u, hu⟩ := hasTri_iff.1 h
    exact hasTri_iff.2 ⟨u, HasTet.same hu (sameTet_code 7 rfl)⟩
  intro w' hw'
  have hwt : ∃ x y p q, m'.tet4 w' = some (x, y, p, q) ∧ ((x, y) = (d, e) ∨ (x, y) = (e, d)) := by
    have : ∀ x y, m'.edge w' = some (x, y) → ∃ p q, m'.tet4 w' = some (x, y, p, q) := by
      intro x y h
      simp only [Mesh.edge, Option.map_eq_some_iff] at h
      obtain ⟨t, ht, h2⟩ := h
      simp only [Tet.edge, Prod.mk.injEq] at h2
      exact ⟨_, _, Mesh.tet4_iff.2 ⟨t, ht, by simp only [Tet.tet, h2]; rfl⟩⟩
    rcases hw' with h | h <;> obtain ⟨p, q, h2⟩ := this _ _ h
    · exact ⟨_, _, p, q, h2, .inl rfl⟩
    · exact ⟨_, _, p, q, h2, .inr rfl⟩
  obtain ⟨x, y, p, q, hk, hxy⟩ := hwt
  obtain ⟨s, hs, hsame⟩ : ∃ s ∈ [(b, a, d, e), (a, c, d, e), (c, b, d, e)], SameTet s (x, y, p, q) := by
    rcases (rep' _).1 ⟨w', hk⟩ with ⟨h, -⟩ | h
    · exfalso
      apply hno
      rw [hc.hasEdge_tet]
      rcases hxy with h2 | h2 <;> cases h2
      · exact ⟨_, _, h⟩
      · exact ⟨_, _, HasTet.same h (sameTet_code 2 rfl)⟩
    · exact h
  obtain ⟨co, hco⟩ := sameTet_iff.1 hsame
  have de := hne
  have fin : ∀ (z1 z2 : VId), z1 ≠ d → z1 ≠ e → z2 ≠ d → z2 ≠ e →
      (x, y, p, q) = (quad (z1, z2, d, e) (perms co 0), quad (z1, z2, d, e) (perms co 1),
        quad (z1, z2, d, e) (perms co 2), quad (z1, z2, d, e) (perms co 3)) →
      (x, y, p, q) = (d, e, z1, z2) ∨ (x, y, p, q) = (e, d, z2, z1) :=
    fun z1 z2 e1 e2 e3 e4 h => edge_position hne e1 e2 e3 e4 hxy h
  simp only [List.mem_cons, List.not_mem_nil, or_false] at hs
  rcases hs with rfl | rfl | rfl
  · rcases fin b a bd be ad ae hco with h | h <;> rw [h] at hk
    · refine back w' d e b a c hk (hN 1 n1 rfl) (hN 1 n2 rfl) T1 ?_ ?_
      · intro t
        simp only [List.mem_cons, List.not_mem_nil, or_false, exists_eq_or_imp, exists_eq_left]
        rw [cong (p := (b, a, d, e)) (q := (d, e, b, a)) 1 rfl,
          cong (p := (a, c, d, e)) (q := (d, e, a, c)) 1 rfl,
          cong (p := (c, b, d, e)) (q := (d, e, c, b)) 1 rfl]
      · intro t; rfl
    · refine back w' e d a b c hk (hN 0 n2 rfl) (hN 0 n1 rfl) T2 ?_ ?_
      · intro t
        simp only [List.mem_cons, List.not_mem_nil, or_false, exists_eq_or_imp, exists_eq_left]
        rw [cong (p := (b, a, d, e)) (q := (e, d, a, b)) 0 rfl,
          cong (p := (a, c, d, e)) (q := (e, d, c, a)) 0 rfl,
          cong (p := (c, b, d, e)) (q := (e, d, b, c)) 0 rfl]
        tauto
      · intro t
        simp only [List.mem_cons, List.not_mem_nil, or_false, exists_eq_or_imp, exists_eq_left]
        tauto
  · rcases fin a c ad ae cd ce hco with h | h <;> rw [h] at hk
    · refine back w' d e a c b hk (hN 1 n2 rfl) (hN 1 n0 rfl) (fun h => T1 (rot h)) ?_ ?_
      · intro t
        simp only [List.mem_cons, List.not_mem_nil, or_false, exists_eq_or_imp, exists_eq_left]
        rw [cong (p := (b, a, d, e)) (q := (d, e, b, a)) 1 rfl,
          cong (p := (a, c, d, e)) (q := (d, e, a, c)) 1 rfl,
          cong (p := (c, b, d, e)) (q := (d, e, c, b)) 1 rfl]
        tauto
      · intro t
        simp only [List.mem_cons, List.not_mem_nil, or_false, exists_eq_or_imp, exists_eq_left]
        rw [cong (p := (a, b, c, d)) (q := (c, a, b, d)) 11 rfl,
          cong (p := (b, a, c, e)) (q := (a, c, b, e)) 7 rfl]
    · refine back w' e d c a b hk (hN 0 n0 rfl) (hN 0 n2 rfl) (fun h => T2 (rot (rot h))) ?_ ?_
      · intro t
        simp only [List.mem_cons, List.not_mem_nil, or_false, exists_eq_or_imp, exists_eq_left]
        rw [cong (p := (b, a, d, e)) (q := (e, d, a, b)) 0 rfl,
          cong (p := (a, c, d, e)) (q := (e, d, c, a)) 0 rfl,
          cong (p := (c, b, d, e)) (q := (e, d, b, c)) 0 rfl]
        tauto
      · intro t
        simp only [List.mem_cons, List.not_mem_nil, or_false, exists_eq_or_imp, exists_eq_left]
        rw [cong (p := (a, b, c, d)) (q := (c, a, b, d)) 11 rfl,
          cong (p := (b, a, c, e)) (q := (a, c, b, e)) 7 rfl]
        tauto
  · rcases fin c b cd ce bd be hco with h | h <;> rw [h] at hk
    · refine back w' d e c b a hk (hN 1 n0 rfl) (hN 1 n1 rfl) (fun h => T1 (rot (rot h))) ?_ ?_
      · intro t
        simp only [List.mem_cons, List.not_mem_nil, or_false, exists_eq_or_imp, exists_eq_left]
        rw [cong (p := (b, a, d, e)) (q := (d, e, b, a)) 1 rfl,
          cong (p := (a, c, d, e)) (q := (d, e, a, c)) 1 rfl,
          cong (p := (c, b, d, e)) (q := (d, e, c, b)) 1 rfl]
        tauto
      · intro t
        simp only [List.mem_cons, List.not_mem_nil, or_false, exists_eq_or_imp, exists_eq_left]
        rw [cong (p := (a, b, c, d)) (q := (b, c, a, d)) 7 rfl,
          cong (p := (b, a, c, e)) (q := (c, b, a, e)) 11 rfl]
    · refine back w' e d b c a hk (hN 0 n1 rfl) (hN 0 n0 rfl) (fun h => T2 (rot h)) ?_ ?_
      · intro t
        simp only [List.mem_cons, List.not_mem_nil, or_false, exists_eq_or_imp, exists_eq_left]
        rw [cong (p := (b, a, d, e)) (q := (e, d, a, b)) 0 rfl,
          cong (p := (a, c, d, e)) (q := (e, d, c, a)) 0 rfl,
          cong (p := (c, b, d, e)) (q := (e, d, b, c)) 0 rfl]
        tauto
      · intro t
        simp only [List.mem_cons, List.not_mem_nil, or_false, exists_eq_or_imp, exists_eq_left]
        rw [cong (p := (a, b, c, d)) (q := (b, c, a, d)) 7 rfl,
          cong (p := (b, a, c, e)) (q := (c, b, a, e)) 11 rfl]
        tauto

/-- The hypotheses hold for walker 0 of tet 0 of `eight`, and the new edge has walkers. -/
example : ∃ m m' ws, eight = some m ∧ m.flip23Unchecked ⟨0, 0⟩ = some (m', ws) ∧
    ∃ m'' ws', m'.flip32Unchecked ⟨1, 1⟩ = some (m'', ws') ∧ ∀ q, HasTet m'' q ↔ HasTet m q := by
  obtain ⟨m, h1, h2⟩ := eight_ok
  obtain ⟨m', ws, h3, h4⟩ := C21_flip32_undoes_flip23 h2 (w := ⟨0, 0⟩) (o := ⟨1, 7⟩)
    (of_map (f := fun m => m.tet4 ⟨0, 0⟩) (b := some (3, 2, 1, 4)) h1 (by decide +kernel))
    (of_map (f := fun m => m.toAdj ⟨0, 0⟩) h1 (by decide +kernel))
    (of_map (f := fun m => m.fourth ⟨1, 7⟩) (b := some GHOST) h1 (by decide +kernel)) (by decide)
    (edge_of_check (of_map (f := fun m => noEdge m 4 GHOST) h1 (by decide +kernel)))
    (of_map (f := fun m => m.numTets) (b := some 8) h1 (by decide +kernel))
    (of_map (f := fun m => m.numEdges) (b := some 14) h1 (by decide +kernel)) (by decide) (by decide)
  have h5 : nine = some m' := by rw [nine, h1, Option.bind_some, h3]; rfl
  obtain ⟨m'', ws', h6, -, h7, -⟩ := h4 ⟨1, 1⟩ (.inl (of_map (f := fun m => m.edge ⟨1, 1⟩) h5 (by decide +kernel)))
  exact ⟨m, m', ws, h1, h3, m'', ws', h6, h7⟩

/-! ## C22 -/

/-- The 4-to-4 flip of the current edge, whose ring has four tets with the outer vertices
`p`, `q`, `r`, `s`; the edge is replaced by the diagonal `p`, `r`. -/
theorem C22_flip44 {m : Mesh P V T} (hm : Consistent m) {w a1 a2 a3 : Walker} {x y p q r s : VId}
    {nT nE : Nat}
    (hw : m.tet4 w = some (x, y, p, q)) (s1 : m.ringStep w = some a1) (s2 : m.ringStep a1 = some a2)
    (s3 : m.ringStep a2 = some a3) (s4 : m.ringStep a3 = some w) (hne : a2 ≠ w)
    (f1 : m.fourth a1 = some r) (f2 : m.fourth a2 = some s) (hno : ¬ HasEdge m p r)
    (hT : m.numTets = some nT) (hE : m.numEdges = some nE) (roomT : nT < idMax) (roomE : nE < idMax) :
    ∃ m' r0 r1 r2 r3, m.flip44Unchecked w = some (m', [r0, r1, r2, r3]) ∧ Consistent m' ∧
      Replaces m m' [(x, y, p, q), (x, y, q, r), (x, y, r, s), (x, y, s, p)]
        [(r, p, q, y), (r, p, y, s), (r, p, s, x), (r, p, x, q)] ∧
      (∀ u u', HasEdge m' u u' ↔ (HasEdge m u u' ∧ (u, u') ≠ (x, y) ∧ (u, u') ≠ (y, x)) ∨
        (u, u') = (p, r) ∨ (u, u') = (r, p)) ∧
      m'.tet4 r0 = some (r, p, q, y) ∧ m'.tet4 r1 = some (r, p, y, s) ∧
      m'.tet4 r2 = some (r, p, s, x) ∧ m'.tet4 r3 = some (r, p, x, q) ∧
      m'.numTets = some nT ∧ m'.numEdges = some nE := by
  have hc := hm.toT
  obtain ⟨m', id2, h1, -, -, F, g0, g1, g2, g3, -, ⟨eid, e0, ue0, h2, h3, h4, h5⟩, h6, h7⟩ :=
    flip44_sem hc hw s1 s2 s3 s4 hne f1 f2 hno
    (by rw [numTets_eq hc hT]; exact roomT) (by rw [numEdges_eq hc hE]; exact roomE)
  refine ⟨m', _, _, _, _, h1, F.cons.toSpec, F.rep, ?_, g0, g1, g2, g3,
    numTets_of F.cons (by rw [h6, numTets_eq hc hT]), numEdges_of F.cons (by rw [h7, numEdges_eq hc hE])⟩
  intro u u'
  rw [hasEdge_iff, hasEdge_iff, ← not_or]
  have k1 : ((u, u') = (x, y) ∨ (u, u') = (y, x)) ↔ sorted2 (x, y) = sorted2 (u, u') :=
    (sorted2_eq_iff (x, y) (u, u')).symm
  have k2 : ((u, u') = (p, r) ∨ (u, u') = (r, p)) ↔ sorted2 (p, r) = sorted2 (u, u') :=
    (sorted2_eq_iff (p, r) (u, u')).symm
  rw [k1, k2]
  have hee : eid ≠ e0 := by rintro rfl; rw [h2] at h3; cases h3
  constructor
  · rintro ⟨i, ue, j1, j2⟩
    rw [h5] at j1
    split_ifs at j1 with c1 c2
    · cases j1
      exact .inr j2
    · refine .inl ⟨⟨i, ue, j1, j2⟩, fun j3 => c1 (hc.eunique _ _ _ _ j1 h3 ?_)⟩
      rw [j2, h4, j3]
  · rintro (⟨⟨i, ue, j1, j2⟩, j3⟩ | j2)
    · refine ⟨i, ue, ?_, j2⟩
      rw [h5, if_neg, if_neg, j1]
      · rintro rfl
        rw [h2] at j1
        cases j1
      · rintro rfl
        rw [h3] at j1
        cases j1
        exact j3 (h4.symm.trans j2)
    · exact ⟨eid, _, by rw [h5, if_neg hee, if_pos rfl], j2⟩

/-- All hypotheses hold for the edge between vertices 0 and 1 of `eight`. -/
example : ∃ m m' ws, eight = some m ∧ m.flip44Unchecked ⟨6, 3⟩ = some (m', ws) ∧ Consistent m' := by
  obtain ⟨m, h1, h2⟩ := eight_ok
  obtain ⟨m', _, _, _, _, h3, h4, -⟩ := C22_flip44 h2 (w := ⟨6, 3⟩) (a1 := ⟨3, 7⟩) (a2 := ⟨4, 4⟩) (a3 := ⟨7, 3⟩)
    (x := 0) (y := 1) (p := 4) (q := 3) (r := GHOST) (s := 2) (nT := 8) (nE := 14)
    (of_map (f := fun m => m.tet4 ⟨6, 3⟩) h1 (by decide +kernel))
    (of_map (f := fun m => m.ringStep ⟨6, 3⟩) h1 (by decide +kernel))
    (of_map (f := fun m => m.ringStep ⟨3, 7⟩) h1 (by decide +kernel))
    (of_map (f := fun m => m.ringStep ⟨4, 4⟩) h1 (by decide +kernel))
    (of_map (f := fun m => m.ringStep ⟨7, 3⟩) h1 (by decide +kernel)) (by decide)
    (of_map (f := fun m => m.fourth ⟨3, 7⟩) h1 (by decide +kernel))
    (of_map (f := fun m => m.fourth ⟨4, 4⟩) h1 (by decide +kernel))
    (edge_of_check (of_map (f := fun m => noEdge m 4 GHOST) h1 (by decide +kernel)))
    (of_map (f := fun m => m.numTets) h1 (by decide +kernel))
    (of_map (f := fun m => m.numEdges) h1 (by decide +kernel)) (by decide) (by decide)
  exact ⟨m, m', _, h1, h3, h4⟩

end Tet
