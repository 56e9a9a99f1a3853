import Verif.Proofs.FlipInSem
import Verif.Props.Cavity

/-!
# Filling a cavity (C42)
-/

namespace Tet
open Spec
variable {P V T : Type}

/-! ### The bound on the rounds does not matter once it is large enough -/

theorem foldlM_mono {α β : Type} {f g : β → α → Option β} (h : ∀ b a r, f b a = some r → g b a = some r) :
    ∀ (l : List α) (b r : β), l.foldlM f b = some r → l.foldlM g b = some r := by
  intro l
  induction l with
  | nil => exact fun _ _ h => h
  | cons a l ih =>
    intro b r hr
    rw [List.foldlM_cons, Option.bind_eq_bind, Option.bind_eq_some_iff] at hr ⊢
    obtain ⟨b', h1, h2⟩ := hr
    exact ⟨b', h b a b' h1, ih b' r h2⟩

theorem fiRing_mono (edge : EId) (start : Walker) {n n' : Nat} (hn : n ≤ n') : ∀ (w : Walker) (m r : Mesh P V T),
    Mesh.fiRing edge start n w m = some r → Mesh.fiRing edge start n' w m = some r := by
  induction n generalizing n' with
  | zero => intro w m r h; cases h
  | succ n ih =>
    intro w m r h
    obtain ⟨n', rfl⟩ : ∃ j, n' = j + 1 := ⟨n' - 1, by omega⟩
    simp only [Mesh.fiRing, Option.bind_eq_bind, Option.bind_eq_some_iff] at h ⊢
    obtain ⟨m1, h1, y, h2, h3⟩ := h
    refine ⟨m1, h1, y, h2, ?_⟩
    split_ifs at h3 ⊢ with hc
    · exact ih (by omega) _ _ _ h3
    · exact h3

theorem fiEdges_mono (v : VId) {n n' : Nat} (hn : n ≤ n') (m : Mesh P V T) (w : Walker) (r : Mesh P V T)
    (h : m.fiEdges v n w = some r) : m.fiEdges v n' w = some r := by
  refine foldlM_mono ?_ _ _ _ h
  intro m w r h
  simp only [Mesh.fiEdge, Option.bind_eq_bind, Option.bind_eq_some_iff] at h ⊢
  obtain ⟨s, h1, a, h2, h3⟩ := h
  refine ⟨s, h1, a, h2, ?_⟩
  split_ifs at h3 ⊢
  · exact h3
  · simp only [Option.bind_eq_some_iff] at h3 ⊢
    obtain ⟨m1, h4, ⟨m2, e⟩, h5, h6⟩ := h3
    exact ⟨m1, h4, (m2, e), h5, fiRing_mono _ _ hn _ _ _ h6⟩

theorem flipIn_mono {m : Mesh P V T} {v : VId} {B : List Walker} {E : List TId} {n n' : Nat} (hn : n ≤ n') {r}
    (h : m.flipInVertexUnchecked v B E n = some r) : m.flipInVertexUnchecked v B E n' = some r := by
  simp only [Mesh.flipInVertexUnchecked, Option.bind_eq_bind, Option.bind_eq_some_iff] at h ⊢
  obtain ⟨m1, h1, m2, h2, m3, h3, x, h4, m5, h5, m6, h6, h7⟩ := h
  exact ⟨m1, h1, m2, h2, m3, h3, x, h4, m5, h5, m6, foldlM_mono (fiEdges_mono v hn) _ _ _ h6, h7⟩

/-! ## C42 -/

/-- What filling a cavity does, from the description of a run. -/
theorem FI.outcome {m m' : Mesh P V T} {E : List TId} {B : List Walker} {v : VId} {A : TId × Fin 4 → TId} {mate : Walker → Walker}
    {η : VId → EId} (h : FI m v B E) (h2 : IsMate m E mate) (h3 : Flipped m v B E A mate η m') :
    ∃ old new, Consistent m' ∧ E.map (fun k => m.tet4 (Mesh.walkerFromTetId k)) = old.map some ∧
      B.map m.tri = new.map (fun q => some (q.1, q.2.1, q.2.2.1)) ∧ (∀ q ∈ new, q.2.2.2 = v) ∧
      Replaces m m' old new ∧ (B.map (nw A)).map m'.tet4 = new.map some ∧ LocksKept m m' ∧
      (∀ u, (m'.vertices.get u).map (fun y => (y.position, y.value, y.flags)) =
        (m.vertices.get u).map fun y => (y.position, y.value, y.flags)) ∧
      Tidy m' ∧ (Unmarked m → Unmarked m') ∧ m'.center = m.center := by
  have hf := h.fill
  have hs := h.meshSurgery h2 h3
  have hc' := hs.consistent h.cons
  obtain ⟨old, ho⟩ : ∃ old : List V4, E.map (fun k => m.tet4 (Mesh.walkerFromTetId k)) = old.map some := by
    have : ∀ l : List TId, (∀ k ∈ l, (m.tets.get k).isSome) →
        ∃ old : List V4, l.map (fun k => m.tet4 (Mesh.walkerFromTetId k)) = old.map some := by
      intro l
      induction l with
      | nil => exact fun _ => ⟨[], rfl⟩
      | cons k l ih =>
        intro hl
        obtain ⟨old, ho⟩ := ih fun j hj => hl j (by simp [hj])
        obtain ⟨t, ht⟩ := Option.isSome_iff_exists.1 (hl k (by simp))
        refine ⟨t.tet (Mesh.walkerFromTetId k).edge :: old, ?_⟩
        rw [List.map_cons, List.map_cons, ho]
        congr 1
        exact Mesh.tet4_iff.2 ⟨t, ht, rfl⟩
    exact this E hf.live
  refine ⟨old, B.map (coneOf m v), hc'.toSpec, ho, ?_, ?_,
    h.replaces h2 h3 ho, ?_, h.locksKept h2 h3, ?_, h.tidy' h3, h.unmarked h3, by rw [h3.eq]⟩
  · rw [List.map_map]
    refine List.map_congr_left fun b hb => ?_
    obtain ⟨t, ht⟩ := h.get (h.outer_mem hb)
    rw [Function.comp, coneOf_eq ht]
    exact Mesh.tri_iff.2 ⟨t, ht, rfl⟩
  · intro q hq
    obtain ⟨b, hb, rfl⟩ := List.mem_map.1 hq
    obtain ⟨t, ht⟩ := h.get (h.outer_mem hb)
    rw [coneOf_eq ht]
  · rw [List.map_map, List.map_map]
    exact List.map_congr_left fun b hb => h.tet4 h3 hb
  · intro u
    obtain ⟨L, hL, -⟩ := h3.verts
    rw [hL]
    rcases setTets_get m.vertices L u with ⟨-, h⟩ | ⟨w, -, h⟩
    · rw [h]
    · rw [h, Option.map_map]; rfl

/-- C42: filling a cavity.  Given tets whose surface is a closed manifold touching all their vertices,
the list of their outer triangles, and a vertex of no tet, `flip_in_vertex_unchecked` does not fail and
always returns; the mesh stays consistent; exactly the given tets are replaced by one tet per outer
triangle that joins it to the vertex; the returned walkers show these tets in the order of the
triangles; locks of everything that remains are as before and what is new is not locked; nothing else
about the vertices and no temporary mark changes. -/
theorem C42_fill {m : Mesh P V T} (hm : Consistent m) (ht : Tidy m) {E : List TId} {B : List Walker} {v : VId}
    {x : Vertex P V} (hf : Fillable m E) (hnd : E.Nodup) (hB : Boundary m E B) (hv : m.vertices.get v = some x)
    (hx : x.tet.tet = idMax) {nT nE : Nat} (hT : m.numTets = some nT) (hE : m.numEdges = some nE)
    (roomT : nT + B.length ≤ idMax) (roomE : nE + 3 * B.length ≤ idMax) :
    ∃ m' B' old new, (∀ fuel, 3 * B.length ≤ fuel → m.flipInVertexUnchecked v B E fuel = some (m', B')) ∧
      Consistent m' ∧ E.map (fun k => m.tet4 (Mesh.walkerFromTetId k)) = old.map some ∧
      B.map m.tri = new.map (fun q => some (q.1, q.2.1, q.2.2.1)) ∧ (∀ q ∈ new, q.2.2.2 = v) ∧
      Replaces m m' old new ∧ B'.map m'.tet4 = new.map some ∧ LocksKept m m' ∧
      (∀ u, (m'.vertices.get u).map (fun y => (y.position, y.value, y.flags)) =
        (m.vertices.get u).map fun y => (y.position, y.value, y.flags)) ∧
      Tidy m' ∧ (Unmarked m → Unmarked m') ∧
      ∃ nT', m'.numTets = some nT' ∧ nT' + E.length = nT + B.length := by
  have hc := hm.toT
  have sT := numTets_eq hc hT
  have sE := numEdges_eq hc hE
  have h : FI m v B E := ⟨hc, ht, hf, hnd, hB, x, hv, hx⟩
  obtain ⟨A, mate, η, m', h1, h2, h3⟩ := h.run (by omega) (by omega) (Nat.le_refl _)
  obtain ⟨old, new, k1, k2, k3, k4, k5, k6, k7, k8, k9, k10, -⟩ := h.outcome h2 h3
  refine ⟨m', B.map (nw A), old, new, fun fuel hfu => flipIn_mono hfu h1, k1, k2, k3, k4, k5, k6, k7, k8, k9, k10, m'.tets.size,
    numTets_of k1.toT rfl, ?_⟩
  have := h.count h3
  omega

/-- C42: whenever filling a cavity returns, the outcome is that of C42_fill, whatever the number of ids left. -/
theorem C42_returns {m m' : Mesh P V T} (hm : Consistent m) (ht : Tidy m) {E : List TId} {B B' : List Walker} {v : VId}
    {x : Vertex P V} (hf : Fillable m E) (hnd : E.Nodup) (hB : Boundary m E B) (hv : m.vertices.get v = some x)
    (hx : x.tet.tet = idMax) {fuel : Nat} (hr : m.flipInVertexUnchecked v B E fuel = some (m', B')) :
    ∃ old new, Consistent m' ∧ E.map (fun k => m.tet4 (Mesh.walkerFromTetId k)) = old.map some ∧
      B.map m.tri = new.map (fun q => some (q.1, q.2.1, q.2.2.1)) ∧ (∀ q ∈ new, q.2.2.2 = v) ∧
      Replaces m m' old new ∧ B'.map m'.tet4 = new.map some ∧ LocksKept m m' ∧
      (∀ u, (m'.vertices.get u).map (fun y => (y.position, y.value, y.flags)) =
        (m.vertices.get u).map fun y => (y.position, y.value, y.flags)) ∧
      Tidy m' ∧ (Unmarked m → Unmarked m') ∧ m'.center = m.center := by
  have h : FI m v B E := ⟨hm.toT, ht, hf, hnd, hB, x, hv, hx⟩
  have hr := flipIn_mono (le_max_left fuel (3 * B.length)) hr
  obtain ⟨A, mate, η, m2, h1, h2, h3⟩ := h.run_or (.inr (by rw [hr]; rfl)) (le_max_right fuel _)
  rw [hr] at h1
  cases h1
  exact h.outcome h2 h3

/-! ### A single tet can always be filled -/

theorem fillable_single {m : Mesh P V T} (hm : Consistent m) {k : TId} (hk : (m.tets.get k).isSome) : Fillable m [k] := by
  obtain ⟨t, ht⟩ := Option.isSome_iff_exists.1 hk
  have hc := hm.toT
  have inj := hc.distinct k t ht
  have hout : ∀ c, Outer m [k] ⟨k, c⟩ := fun c =>
    ⟨by simp, _, Mesh.toAdj_eq (w := ⟨k, c⟩) ht, by simpa using hc.adj.no_self hc.distinct ht c⟩
  have hof : ∀ w, Outer m [k] w → ∃ c, w = ⟨k, c⟩ := by
    rintro ⟨j, c⟩ ⟨h1, -⟩
    simp only [List.mem_singleton] at h1
    exact ⟨c, by rw [h1]⟩
  refine ⟨by simpa using hk, ?_, ?_, ?_⟩
  · intro w w' hw hw' he
    obtain ⟨c, rfl⟩ := hof w hw
    obtain ⟨c', rfl⟩ := hof w' hw'
    have key : ∀ c c', firstIdx c = firstIdx c' → secondIdx c = secondIdx c' → c = c' := by decide
    simp only [Mesh.edge, ht, Option.map_some, Option.some.injEq, Tet.edge, Prod.mk.injEq] at he
    rw [key c c' (inj he.1) (inj he.2)]
  · intro w w' hw hw' he
    obtain ⟨c, rfl⟩ := hof w hw
    obtain ⟨c', rfl⟩ := hof w' hw'
    simp only [Mesh.first, ht, Option.map_some, Option.some.injEq] at he
    have step : ∀ (w : Walker) c c', Fan m [k] w ⟨k, c⟩ → firstIdx c' = firstIdx c → secondIdx c' = thirdIdx c → Fan m [k] w ⟨k, c'⟩ := by
      intro w c c' h h1 h2
      refine Fan.step h (a := t.first c) (b := t.second c) (c := t.third c) ?_ (hout c') ?_
      · simp only [Mesh.tri, ht, Option.map_some, Tet.tri]
      · simp only [Mesh.edge, ht, Option.map_some, Tet.edge, Tet.first, Tet.second, Tet.third, h1, h2]
    have key : ∀ c c', firstIdx c = firstIdx c' → c' = c ∨ ∃ c1, (firstIdx c1 = firstIdx c ∧ secondIdx c1 = thirdIdx c) ∧
        (c' = c1 ∨ (firstIdx c' = firstIdx c1 ∧ secondIdx c' = thirdIdx c1)) := by decide
    rcases key c c' (inj he) with rfl | ⟨c1, ⟨h1, h2⟩, rfl | ⟨h3, h4⟩⟩
    · exact .refl
    · exact step _ _ _ .refl h1 h2
    · exact step _ _ _ (step _ _ _ .refl h1 h2) h3 h4
  · rintro ⟨j, c⟩ u h1 h2
    simp only [List.mem_singleton] at h1
    subst h1
    exact ⟨_, hout c, h2⟩

/-! ### An example with three tets -/

/-- `eight` with another vertex that is in no tet. -/
def eightPlus : Option (Mesh Nat Nat Unit) := eight.bind fun m =>
  (m.vertices.insert (Vertex.new invalidWalker 15 5)).map fun r => { m with vertices := r.1 }

def allWalkers (E : List TId) : List Walker := E.flatMap fun k => (List.finRange 12).map fun c => ⟨k, c⟩

def outerCheck (m : Mesh P V T) (E : List TId) (w : Walker) : Bool :=
  E.contains w.tet && (m.toAdj w).any fun w' => !E.contains w'.tet

def outers (m : Mesh P V T) (E : List TId) : List Walker := (allWalkers E).filter (outerCheck m E)

def fanNext (m : Mesh P V T) (E : List TId) (x : Walker) : Option Walker :=
  (m.tri x).bind fun s => (outers m E).find? fun y => m.edge y == some (s.1, s.2.2)

def fanCheck (m : Mesh P V T) (E : List TId) (w' : Walker) : Nat → Walker → Bool
  | 0, _ => false
  | n + 1, x => x == w' || (fanNext m E x).any (fanCheck m E w' n)

def fillableCheck (m : Mesh P V T) (E : List TId) : Bool :=
  E.all (fun k => (m.tets.get k).isSome) &&
  (outers m E).all (fun w => (outers m E).all fun w' =>
    (m.edge w != m.edge w' || w == w') && (m.first w != m.first w' || fanCheck m E w' 40 w)) &&
  (allWalkers E).all fun w => (outers m E).any fun w' => m.first w' == m.first w

theorem mem_outers {m : Mesh P V T} {E : List TId} {w : Walker} : w ∈ outers m E ↔ Outer m E w := by
  have h1 : outerCheck m E w = true ↔ Outer m E w := by
    simp [outerCheck, Outer, Option.any_eq_true]
  rw [outers, List.mem_filter, h1]
  refine ⟨fun h => h.2, fun h => ⟨?_, h⟩⟩
  simp only [allWalkers, List.mem_flatMap, List.mem_map]
  exact ⟨w.tet, h.1, w.edge, List.mem_finRange _, rfl⟩

theorem fan_of_check {m : Mesh P V T} {E : List TId} {w w' : Walker} : ∀ n x, Fan m E w x → fanCheck m E w' n x = true → Fan m E w w' := by
  intro n
  induction n with
  | zero => intro x _ h; cases h
  | succ n ih =>
    intro x hx h
    rw [fanCheck, Bool.or_eq_true, beq_iff_eq, Option.any_eq_true] at h
    rcases h with rfl | ⟨y, h1, h2⟩
    · exact hx
    · refine ih y ?_ h2
      simp only [fanNext, Option.bind_eq_some_iff] at h1
      obtain ⟨⟨a, b, c⟩, h3, h4⟩ := h1
      have h5 := List.mem_of_find?_eq_some h4
      have h6 := List.find?_some h4
      exact Fan.step hx h3 (mem_outers.1 h5) (beq_iff_eq.1 h6)

theorem fillable_of_check {m : Mesh P V T} {E : List TId} (h : fillableCheck m E = true) : Fillable m E := by
  simp only [fillableCheck, Bool.and_eq_true, List.all_eq_true] at h
  obtain ⟨⟨h1, h2⟩, h3⟩ := h
  refine ⟨h1, ?_, ?_, ?_⟩
  · intro w w' hw hw' he
    have := (h2 w (mem_outers.2 hw) w' (mem_outers.2 hw')).1
    simpa [he] using this
  · intro w w' hw hw' he
    have := (h2 w (mem_outers.2 hw) w' (mem_outers.2 hw')).2
    simp only [he, bne_self_eq_false, Bool.false_or] at this
    exact fan_of_check 40 w .refl this
  · intro w u hw hu
    have := h3 w (by
      simp only [allWalkers, List.mem_flatMap, List.mem_map]
      exact ⟨w.tet, hw, w.edge, List.mem_finRange _, rfl⟩)
    rw [List.any_eq_true] at this
    obtain ⟨w', h4, h5⟩ := this
    exact ⟨w', mem_outers.1 h4, by rw [beq_iff_eq.1 h5, hu]⟩

def tidyCheck (m : Mesh P V T) : Bool :=
  (m.tets.keys.all fun k => (m.tets.get k).all fun t => !t.flags.boundary && !t.flags.needsDuplication) &&
  (m.edges.keys.all fun k => (m.edges.get k).all fun e => !e.boundary && e.boundaryWalker.tet == idMax) &&
  (m.vertices.keys.all fun k => (m.vertices.get k).all fun x => !x.flags.edgeAdded) && !m.ghostFlags.edgeAdded

theorem tidy_of_check {m : Mesh P V T} (h : tidyCheck m = true) : Tidy m := by
  simp only [tidyCheck, Bool.and_eq_true, List.all_eq_true] at h
  obtain ⟨⟨⟨h1, h2⟩, h3⟩, h4⟩ := h
  refine ⟨?_, ?_, ?_, by simpa using h4⟩
  · intro k t ht
    have := h1 k (IdMap.mem_keys.2 (by rw [ht]; rfl))
    simpa [ht] using this
  · intro k t ht
    have := h2 k (IdMap.mem_keys.2 (by rw [ht]; rfl))
    simpa [ht] using this
  · intro k t ht
    have := h3 k (IdMap.mem_keys.2 (by rw [ht]; rfl))
    simpa [ht] using this

def boundaryCheck (m : Mesh P V T) (E : List TId) (B : List Walker) : Bool :=
  decide ((B.map fid).Nodup) && (outers m E).all (fun w => (B.map fid).contains (fid w)) && B.all (outerCheck m E)

theorem boundary_of_check {m : Mesh P V T} {E : List TId} {B : List Walker} (h : boundaryCheck m E B = true) : Boundary m E B := by
  simp only [boundaryCheck, Bool.and_eq_true, List.all_eq_true, decide_eq_true_eq] at h
  obtain ⟨⟨h1, h2⟩, h3⟩ := h
  constructor
  · rw [List.Nodup, List.pairwise_map] at h1
    exact h1.imp fun h h' => h ((sameTri_iff _ _).1 h').symm
  · intro w
    constructor
    · rintro ⟨b, hb, hs⟩
      have : Outer m E b := by
        have := h3 b hb
        simpa [outerCheck, Outer, Option.any_eq_true] using this
      exact this.congr ((sameTri_iff _ _).1 hs)
    · intro hw
      have := h2 w (mem_outers.2 hw)
      simp only [List.contains_iff_mem, List.mem_map] at this
      obtain ⟨b, hb, he⟩ := this
      exact ⟨b, hb, (sameTri_iff _ _).2 he.symm⟩

/-- All hypotheses of `C42_fill` hold for three tets of `eightPlus` around an edge, whose surface has six
triangles; the result has 8 - 3 + 6 tets. -/
example : ∃ m x m' B' old new, eightPlus = some m ∧ Consistent m ∧ Tidy m ∧ Fillable m [0, 5, 6] ∧
    Boundary m [0, 5, 6] [⟨0, 0⟩, ⟨0, 3⟩, ⟨5, 1⟩, ⟨5, 3⟩, ⟨6, 7⟩, ⟨6, 6⟩] ∧ m.vertices.get 5 = some x ∧ x.tet.tet = idMax ∧
    m.flipInVertexUnchecked 5 [⟨0, 0⟩, ⟨0, 3⟩, ⟨5, 1⟩, ⟨5, 3⟩, ⟨6, 7⟩, ⟨6, 6⟩] [0, 5, 6] 18 = some (m', B') ∧
    Consistent m' ∧ Replaces m m' old new ∧ new.length = 6 ∧ m'.numTets = some 11 := by
  obtain ⟨m, h1, h2⟩ := eight_ok
  have h3 : (eight.bind fun m => m.vertices.insert (Vertex.new invalidWalker 15 5)).isSome = true := by
    decide +kernel
  rw [h1, Option.bind_some] at h3
  obtain ⟨⟨vs, v⟩, h4⟩ := Option.isSome_iff_exists.1 h3
  have he : eightPlus = some { m with vertices := vs } := by rw [eightPlus, h1, Option.bind_some, h4]; rfl
  have hc : Consistent { m with vertices := vs } := (h2.toT.addVertex h4).1.toSpec
  have a1 := tidy_of_check (of_map (f := tidyCheck) he (by decide +kernel))
  have a2 := fillable_of_check (of_map (f := fun m => fillableCheck m [0, 5, 6]) he (by decide +kernel))
  have a3 := boundary_of_check (of_map (f := fun m => boundaryCheck m [0, 5, 6] [⟨0, 0⟩, ⟨0, 3⟩, ⟨5, 1⟩, ⟨5, 3⟩, ⟨6, 7⟩, ⟨6, 6⟩]) he
    (by decide +kernel))
  have a4 := of_map (f := fun m => (m.vertices.get 5).map (·.tet.tet)) (b := some idMax) he (by decide +kernel)
  obtain ⟨x, a5, a6⟩ := Option.map_eq_some_iff.1 a4
  obtain ⟨m', B', old, new, b1, b2, -, b4, -, b6, -, -, -, -, -, nT', b7, b8⟩ := C42_fill hc a1 a2 (by decide) a3 a5 a6 (nT := 8) (nE := 14)
    (of_map (f := fun m => m.numTets) he (by decide +kernel)) (of_map (f := fun m => m.numEdges) he (by decide +kernel))
    (by decide) (by decide)
  refine ⟨_, x, m', B', old, new, he, hc, a1, a2, a3, a5, a6, b1 18 (by decide), b2, b6, ?_, ?_⟩
  · have := congrArg List.length b4
    simpa using this.symm
  · simp only [List.length_cons, List.length_nil] at b8
    rw [b7]
    congr 1
    omega

end Tet
