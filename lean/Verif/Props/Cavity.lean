import Verif.Proofs.CavityMain
import Verif.Proofs.Locks
import Verif.Props.Flips
import Mathlib.Algebra.BigOperators.Fin

/-!
# The insertion cavity (C41, C62)
-/

namespace Tet
open Spec
variable {P V T : Type}

/-! ## C41 -/

/-- C41: growing the cavity of a vertex in a Delaunay mesh terminates; it is made up of the tets that
can be reached from the initial tets through tets whose circumsphere contains the vertex, each once; the
returned walkers list the triangles around it, each once; and the mesh is as before. -/
theorem C41_convex {m : Mesh P V T} (hm : Consistent m) (hu : Unmarked m) (tests : CavityTests)
    (hs : ∀ p q, Function.Injective (quad p) → SameTet p q → tests.inSphere p = tests.inSphere q) (exclude : List TId) (assertStar : Bool)
    {B : List Walker} {E : List TId} (hE : ∀ k ∈ E, (m.tets.get k).isSome) (hnd : E.Nodup) (hB : Boundary m E B)
    (ha : assertStar = true → ∀ w ∈ B, ∀ vs, m.tri w = some vs → tests.above vs = true) :
    ∃ n B' E', (∀ fuel, n ≤ fuel →
      Mesh.pointCavity tests B E exclude m true assertStar true fuel = some (m, B', E')) ∧ E'.Nodup ∧
      (∀ k, k ∈ E' ↔ Reached m (Conflicts tests.inSphere m) E k) ∧ Boundary m E' B' := by
  obtain ⟨n, B', E', h⟩ := pointCavity_convex hm.toT hu tests hs exclude assertStar hE hnd hB ha
  exact ⟨n, B', E ++ E', h⟩

/-- C41: the call of `add_vertex_delaunay`, with the four triangles of one tet. -/
theorem C41_start {m : Mesh P V T} (hm : Consistent m) (hu : Unmarked m) (tests : CavityTests)
    (hs : ∀ p q, Function.Injective (quad p) → SameTet p q → tests.inSphere p = tests.inSphere q) {k : TId} (hk : (m.tets.get k).isSome) :
    ∃ n B E, (∀ fuel, n ≤ fuel →
      Mesh.pointCavity tests [⟨k, 0⟩, ⟨k, 1⟩, ⟨k, 2⟩, ⟨k, 3⟩] [k] [] m true false true fuel = some (m, B, E)) ∧ E.Nodup ∧
      (∀ j, j ∈ E ↔ Reached m (Conflicts tests.inSphere m) [k] j) ∧ Boundary m E B := by
  refine C41_convex hm hu tests hs [] false (by simpa using hk) (by simp) ?_ (by simp)
  refine boundary_of_fids (by simpa using hk) ?_ ?_ ?_
  · have : [face (0 : Code), face (1 : Code), face (2 : Code), face (3 : Code)].Nodup := by decide
    simpa [fid] using this
  · intro j f hj
    have hf : ∀ f : Fin 4, f = face (0 : Code) ∨ f = face (1 : Code) ∨ f = face (2 : Code) ∨ f = face (3 : Code) := by
      decide
    have ha := (across_live hm.toT (x := (j, f)) hj).2.1
    simp only [List.map_cons, List.map_nil, List.mem_cons, List.not_mem_nil, or_false, fid, Prod.mk.injEq]
    constructor
    · intro h
      have : j = k := by rcases h with h | h | h | h <;> exact h.1
      exact ⟨this, fun h' => ha (h'.trans this.symm)⟩
    · rintro ⟨rfl, -⟩
      rcases hf f with h | h | h | h
      · exact .inl ⟨rfl, h⟩
      · exact .inr (.inl ⟨rfl, h⟩)
      · exact .inr (.inr (.inl ⟨rfl, h⟩))
      · exact .inr (.inr (.inr ⟨rfl, h⟩))
  · intro x hx
    simp only [List.map_cons, List.map_nil, List.mem_cons, List.not_mem_nil, or_false] at hx
    rcases hx with rfl | rfl | rfl | rfl <;> simp [fid]

/-- C41: with `convex` but without growing, the marks are left behind. -/
theorem C41_leftover {m : Mesh P V T} (tests : CavityTests) {w : Walker} (hw : (m.tets.get w.tet).isSome) (fuel : Nat) :
    ∃ m', Mesh.pointCavity tests [w] [w.tet] [] m true false false fuel = some (m', [w], [w.tet]) ∧ ¬ Unmarked m' := by
  obtain ⟨t, ht⟩ := Option.isSome_iff_exists.1 hw
  obtain ⟨m', h1, -, h3⟩ := m.modTet_step (·.setImm true (face w.edge)) ht
  refine ⟨m', ?_, ?_⟩
  · simp [Mesh.pointCavity, Mesh.markInitial, Mesh.tri, ht, h1]
  · intro h
    have := (h w.tet _ (by rw [h3, if_pos rfl])).1 (face w.edge)
    simp [Tet.setImm] at this

/-! ## C62 -/

/-- C62: around a locked constraint the cavity is grown and then shrunk.  The result is the largest part
of the grown cavity all of whose outer triangles the vertex sees from inside (and which has no outer
triangle on an excluded tet), listed without repetition, with the triangles around it, each once.  The
mesh is as before.  It is a panic exactly if that part is empty.

The grown cavity `E ++ E'` contains only tets with the vertex in their circumsphere besides the initial
ones. -/
theorem C62_general {m : Mesh P V T} (hm : Consistent m) (hu : Unmarked m) (tests : CavityTests)
    (hs : ∀ p q, Function.Injective (quad p) → SameTet p q → tests.inSphere p = tests.inSphere q)
    (hrot : ∀ s t, Rotation s t → tests.above s = tests.above t) (exclude : List TId) (assertStar remove : Bool)
    {B : List Walker} {E : List TId} (hE : ∀ k ∈ E, (m.tets.get k).isSome) (hnd : E.Nodup) (hB : Boundary m E B)
    (ha : assertStar = true → ∀ w ∈ B, ∀ vs, m.tri w = some vs → tests.above vs = true) :
    ∃ n E' S B', (∀ fuel, n ≤ fuel →
      Mesh.pointCavity tests B E exclude m false assertStar remove fuel =
        if S = [] then none else some (m, B', S)) ∧
      (remove = false → E' = []) ∧ (∀ k ∈ E ++ E', Reached m (Conflicts tests.inSphere m) E k) ∧
      S.Nodup ∧ Boundary m S B' ∧
      Visible m tests.above exclude (E ++ E') (· ∈ S) ∧
      ∀ U, Visible m tests.above exclude (E ++ E') U → ∀ k, U k → k ∈ S := by
  obtain ⟨n, E', S, B', h1, h2, h3, h4⟩ :=
    pointCavity_general hm.toT hu tests hs hrot exclude assertStar remove hE hnd hB ha
  exact ⟨n, E', S, B', h1, h2, h3.reached, h4⟩

/-- C62: the cavity spares locked elements.  A locked edge that is inside it was inside the initial
tets, and so was a locked triangle with locked edges. -/
theorem C62_locks {m : Mesh P V T} (hm : Consistent m) (hu : Unmarked m) (tests : CavityTests)
    (hs : ∀ p q, Function.Injective (quad p) → SameTet p q → tests.inSphere p = tests.inSphere q)
    (hrot : ∀ s t, Rotation s t → tests.above s = tests.above t) (exclude : List TId) (assertStar remove : Bool)
    {B : List Walker} {E : List TId} (hE : ∀ k ∈ E, (m.tets.get k).isSome) (hnd : E.Nodup) (hB : Boundary m E B)
    (ha : assertStar = true → ∀ w ∈ B, ∀ vs, m.tri w = some vs → tests.above vs = true) :
    ∃ n, ∀ fuel m' B' S, n ≤ fuel →
      Mesh.pointCavity tests B E exclude m false assertStar remove fuel = some (m', B', S) →
      (∀ w, EdgeLocked m w → Surrounded m S w → Surrounded m E w) ∧
      ∀ w w', TriAndEdgesLocked m w → m.toAdj w = some w' → w.tet ∈ S → w'.tet ∈ S → w.tet ∈ E ∧ w'.tet ∈ E := by
  obtain ⟨n, E', S, B', h1, -, h3, -, -, h6, -⟩ :=
    pointCavity_general hm.toT hu tests hs hrot exclude assertStar remove hE hnd hB ha
  refine ⟨n, fun fuel m' B2 S2 hf h => ?_⟩
  rw [h1 fuel hf] at h
  split_ifs at h with hS
  simp only [Option.some.injEq, Prod.mk.injEq] at h
  obtain ⟨-, -, rfl⟩ := h
  exact ⟨fun w hl hw => h3.edges w hl fun w' hw' => h6.1 _ (hw w' hw'),
    fun w w' hl ha hw hw' => h3.tris w w' hl ha (h6.1 _ hw) (h6.1 _ hw')⟩

/-! ## Examples -/

/-- Tests that add up numbers of the vertices. -/
def sumTests (g : VId → Int) (c d : Int) : CavityTests :=
  ⟨fun q => g q.1 + g q.2.1 + g q.2.2.1 + g q.2.2.2 - c, fun t => decide (d ≤ g t.1 + g t.2.1 + g t.2.2)⟩

theorem sumTests_same (g : VId → Int) (c d : Int) (p q : V4) (_ : Function.Injective (quad p)) (h : SameTet p q) :
    (sumTests g c d).inSphere p = (sumTests g c d).inSphere q := by
  obtain ⟨σ, -, h⟩ := h
  have key : ∀ q : V4, (sumTests g c d).inSphere q = (∑ i, g (quad q i)) - c := by
    intro q
    rw [Fin.sum_univ_four]
    rfl
  rw [key, key]
  congr 1
  rw [← Equiv.sum_comp σ]
  exact Finset.sum_congr rfl fun i _ => by rw [h]

theorem sumTests_rot (g : VId → Int) (c d : Int) (s t : V3) (h : Rotation s t) :
    (sumTests g c d).above s = (sumTests g c d).above t := by
  rcases h with rfl | rfl | rfl
  · rfl
  · simp only [sumTests]; congr 2; omega
  · simp only [sumTests]; congr 2; omega

/-- The checkable form of `Unmarked`. -/
def unmarkedCheck (m : Mesh P V T) : Bool := m.tets.keys.all fun k => (m.tets.get k).all fun t =>
  decide (∀ i, t.flags.boundImm i = false) && decide (∀ i, t.flags.boundLimit i = false) && !t.flags.notEnclosure

theorem unmarked_of_check {m : Mesh P V T} (h : unmarkedCheck m = true) : Unmarked m := by
  intro k t ht
  have := List.all_eq_true.1 h k (IdMap.mem_keys.2 (by simp [ht]))
  rw [ht] at this
  simp only [Option.all_some, Bool.and_eq_true, decide_eq_true_eq, Bool.not_eq_true'] at this
  exact ⟨this.1.1, this.1.2, this.2⟩

/-- The tests of the examples: a tet is in conflict if it has both the vertices 3 and 4. -/
def tests34 : CavityTests := sumTests (fun v => if v = 3 ∨ v = 4 then 1 else 0) 2 0

/-- The same with a triangle visible only if it has one of these vertices. -/
def tests34' : CavityTests := sumTests (fun v => if v = 3 ∨ v = 4 then 1 else 0) 2 1

/-- Three of the four solid tets of `eight` are in conflict, starting in tet 0. -/
example : ∃ m, eight = some m ∧ Consistent m ∧ Unmarked m ∧ (m.tets.get 0).isSome ∧
    (Mesh.pointCavity tests34 [⟨0, 0⟩, ⟨0, 1⟩, ⟨0, 2⟩, ⟨0, 3⟩] [0] [] m true false true 40).map (·.2) =
      some ([⟨0, 0⟩, ⟨0, 3⟩, ⟨5, 1⟩, ⟨5, 3⟩, ⟨6, 7⟩, ⟨6, 6⟩], [0, 5, 6]) := by
  obtain ⟨m, h1, h2⟩ := eight_ok
  have h3 := unmarked_of_check (of_map (f := unmarkedCheck) h1 (by decide +kernel))
  have h4 := of_map (f := fun m => (m.tets.get 0).isSome) (b := true) h1 (by decide +kernel)
  exact ⟨m, h1, h2, h3, h4, of_map (f := fun m => (Mesh.pointCavity tests34
      [⟨0, 0⟩, ⟨0, 1⟩, ⟨0, 2⟩, ⟨0, 3⟩] [0] [] m true false true 40).map (·.2)) h1 (by decide +kernel)⟩

/-- The hypotheses of `C62_general`, and tet 6 dropped because it is excluded. -/
example : ∃ m, eight = some m ∧ Consistent m ∧ Unmarked m ∧ (m.tets.get 0).isSome ∧
    (∀ p q, Function.Injective (quad p) → SameTet p q → tests34.inSphere p = tests34.inSphere q) ∧
    (∀ s t, Rotation s t → tests34.above s = tests34.above t) ∧
    (Mesh.pointCavity tests34 [⟨0, 0⟩, ⟨0, 1⟩, ⟨0, 2⟩, ⟨0, 3⟩] [0] [6] m false false true 40).map (·.2) =
      some ([⟨0, 0⟩, ⟨0, 3⟩, ⟨5, 1⟩, ⟨5, 3⟩, ⟨0, 6⟩, ⟨5, 10⟩], [0, 5]) := by
  obtain ⟨m, h1, h2⟩ := eight_ok
  have h3 := unmarked_of_check (of_map (f := unmarkedCheck) h1 (by decide +kernel))
  have h4 := of_map (f := fun m => (m.tets.get 0).isSome) (b := true) h1 (by decide +kernel)
  exact ⟨m, h1, h2, h3, h4, sumTests_same _ _ _, sumTests_rot _ _ _, of_map (f := fun m => (Mesh.pointCavity tests34
      [⟨0, 0⟩, ⟨0, 1⟩, ⟨0, 2⟩, ⟨0, 3⟩] [0] [6] m false false true 40).map (·.2)) h1 (by decide +kernel)⟩

/-- A locked edge stops the growth: with the edge between 3 and 4 locked, which the tets 0, 5 and 6
surround, tet 6 stays out. -/
example : ∃ m w, eight.map (fun m => { m with edges := m.edges.modify 13 fun ue => { ue with locked := true } }) = some m ∧
    Consistent m ∧ Unmarked m ∧ EdgeLocked m w ∧ (m.tets.get 0).isSome ∧
    (Mesh.pointCavity tests34 [⟨0, 0⟩, ⟨0, 1⟩, ⟨0, 2⟩, ⟨0, 3⟩] [0] [] m false false true 40).map (·.2.2) =
      some [0, 5] := by
  obtain ⟨m, h1, h2⟩ := eight_ok
  have he : eight.map (fun m => { m with edges := m.edges.modify 13 fun ue => { ue with locked := true } }) = some _ :=
    congrArg _ h1
  have hc := h2.toT.lockEdge 13 true
  have hl := of_map (f := fun m => (m.undirEdge ⟨0, 5⟩, (m.edges.get 13).map (·.locked))) (b := (some 13, some true)) he
    (by decide +kernel)
  simp only [Prod.mk.injEq, Option.map_eq_some_iff] at hl
  obtain ⟨hl1, ue, hl2, hl3⟩ := hl
  exact ⟨_, ⟨0, 5⟩, he, hc.toSpec, unmarked_of_check (of_map (f := unmarkedCheck) he (by decide +kernel)),
    ⟨13, ue, hl1, hl2, hl3⟩, of_map (f := fun m => (m.tets.get 0).isSome) (b := true) he (by decide +kernel),
    of_map (f := fun m => (Mesh.pointCavity tests34
      [⟨0, 0⟩, ⟨0, 1⟩, ⟨0, 2⟩, ⟨0, 3⟩] [0] [] m false false true 40).map (·.2.2)) he (by decide +kernel)⟩

/-- `eight` with the triangle between the tets 5 and 6 locked, but not its edges. -/
def eightLocked : Option (Mesh Nat Nat Unit) := eight.bind fun m =>
  (m.modTet 5 (·.setLocked 2)).bind fun m => m.modTet 6 (·.setLocked 1)

/-- C62: the lock of a triangle alone is not enough: the triangle between the tets 5 and 6 is locked,
but both end up in the cavity of a vertex in tet 0. -/
theorem C62_triangle_swallowed : ∃ m w w', eightLocked = some m ∧ Consistent m ∧ Unmarked m ∧
    m.triLocked w = some true ∧ m.toAdj w = some w' ∧ m.triLocked w' = some true ∧ w.tet = 5 ∧ w'.tet = 6 ∧
    (Mesh.pointCavity tests34 [⟨0, 0⟩, ⟨0, 1⟩, ⟨0, 2⟩, ⟨0, 3⟩] [0] [] m false true true 40).map (·.2.2) =
      some [0, 5, 6] := by
  obtain ⟨m, h1, h2⟩ := eight_ok
  have ha := of_map (f := fun m => m.toAdjAe ⟨5, 2⟩) h1 (b := some ⟨6, 9⟩) (by decide +kernel)
  obtain ⟨m1, m2, k1, k2, k3, -⟩ := h2.toT.lockTri ha
  have he : eightLocked = some m2 := by
    rw [eightLocked, h1, Option.bind_some]
    change (m.modTet 5 (·.setLocked 2)).bind _ = _
    rw [show m.modTet 5 (·.setLocked 2) = some m1 from k1]
    exact k2
  exact ⟨m2, ⟨5, 2⟩, ⟨6, 9⟩, he, k3.toSpec, unmarked_of_check (of_map (f := unmarkedCheck) he (by decide +kernel)),
    of_map (f := fun m => m.triLocked ⟨5, 2⟩) he (by decide +kernel),
    of_map (f := fun m => m.toAdj ⟨5, 2⟩) he (by decide +kernel),
    of_map (f := fun m => m.triLocked ⟨6, 9⟩) he (by decide +kernel), rfl, rfl,
    of_map (f := fun m => (Mesh.pointCavity tests34
      [⟨0, 0⟩, ⟨0, 1⟩, ⟨0, 2⟩, ⟨0, 3⟩] [0] [] m false true true 40).map (·.2.2)) he (by decide +kernel)⟩

end Tet
