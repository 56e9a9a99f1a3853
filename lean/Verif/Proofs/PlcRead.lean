import Verif.Proofs.PlcLoop
import Verif.Proofs.Marks

/-!
# Reading a face of a `Plc`
-/

namespace Tet.Plc
open Linked PlcSpec Spec
variable {P Q V E F : Type}

theorem toList_of_yields {σ α : Type} {next : σ → Option (Option α × σ)} :
    ∀ {n : Nat} {s : σ} {l : List α}, Yields next s l → l.length < n → toList next n s = some l
  | 0, _, l, _, h => absurd h (Nat.not_lt_zero _)
  | n + 1, s, [], h, _ => by
    obtain ⟨s', h1, -⟩ := h.unnil
    simp [toList, h1]
  | n + 1, s, a :: l, h, hl => by
    obtain ⟨s', h1, h2⟩ := h.uncons
    simp only [toList, Option.bind_eq_bind, h1, Option.bind_some]
    rw [toList_of_yields h2 (by simpa using hl)]
    rfl

/-- A circular list read by the circular iterator. -/
theorem Cyclic.yields {W : Type} {next prev : Nat → Option Nat} {o : Nat} {l : List Nat} {value : Nat → Option W}
    (h : Cyclic next prev o l) (hne : l ≠ []) (hnd : l.Nodup) (hv : ∀ i ∈ l, (value i).isSome) :
    ∃ r : List (Nat × W), Yields (CircIter.next value next) (CircIter.new o) r ∧ r.map Prod.fst = l ∧
      ∀ x ∈ r, value x.1 = some x.2 := by
  rcases h with h | ⟨t, rfl, h⟩
  · exact absurd h.1 hne
  obtain ⟨w0, -⟩ := Option.isSome_iff_exists.1 (hv o (by simp))
  have hv' : ∀ x ∈ o :: t, value x = some ((value x).getD w0) := by
    intro x hx
    obtain ⟨w, hw⟩ := Option.isSome_iff_exists.1 (hv x hx)
    rw [hw]; rfl
  refine ⟨_, circ_yields value next (fun x => (value x).getD w0) o o t (h.imp fun _ _ h => h.1)
    (List.nodup_cons.1 hnd).1 hv', ?_, ?_⟩
  · rw [List.map_map]; exact List.map_id _
  · intro x hx
    obtain ⟨y, hy, rfl⟩ := List.mem_map.1 hx
    exact hv' y hy

/-- The rings of a face, read from the first. -/
theorem rings_yields {p : Plc P Q V E F} {f : Nat} {face : Face Q F} (hb : Base p)
    (hok : (layerFace p.rings p.faces).Ok) (hf : p.faces.get f = some face) (hne : faceMem p f ≠ []) :
    ∃ r, Yields p.ringsNext (CircIter.new face.ring) r ∧ r.map Prod.fst = faceMem p f ∧
      ∀ x ∈ r, p.rings.get x.1 = some x.2 := by
  refine Cyclic.yields (hok f face.ring ?_) hne (Layer.nodup_mem _ _) ?_
  · show (p.faces.get f).map _ = _
    rw [hf]; rfl
  · intro i hi
    exact hb.fr.live i (Layer.lt_of_mem hi)

/-- The face edges of a ring, read from the first. -/
theorem faceEdges_yields {p : Plc P Q V E F} {r fe : Nat} {ring : FaceRing} (hb : Base p)
    (hok : (layerRing p.faceEdges p.rings).Ok) (hr : p.rings.get r = some ring)
    (he : ring.element = .faceEdge fe) (hne : ringMem p r ≠ []) :
    ∃ l, Yields p.faceEdgesNext (CircIter.new fe) l ∧ l.map Prod.fst = ringMem p r ∧
      ∀ x ∈ l, p.faceEdges.get x.1 = some x.2 := by
  refine Cyclic.yields (hok r fe ?_) hne (Layer.nodup_mem _ _) ?_
  · show (p.rings.get r).bind _ = _
    rw [hr]
    simp [FaceRing.fe, he]
  · intro i hi
    exact hb.fl.live i (Layer.lt_of_mem hi)

theorem length_ringMem (p : Plc P Q V E F) (r : Nat) : (ringMem p r).length ≤ p.faceEdges.top :=
  (List.length_filter_le _ _).trans (by rw [List.length_range]; exact le_refl _)

theorem length_faceMem (p : Plc P Q V E F) (f : Nat) : (faceMem p f).length ≤ p.rings.top :=
  (List.length_filter_le _ _).trans (by rw [List.length_range]; exact le_refl _)

/-- Mapping the results and the states of an iterator. -/
theorem yields_map {σ τ α β : Type} {next : σ → Option (Option α × σ)}
    {next' : τ → Option (Option β × τ)} {f : α → Option β} (mk : σ → τ)
    (hnone : ∀ s s', next s = some (none, s') → next' (mk s) = some (none, mk s'))
    (hsome : ∀ s a b s', next s = some (some a, s') → f a = some b → next' (mk s) = some (some b, mk s')) :
    ∀ (l : List α) (r : List β) (s : σ), Yields next s l → l.map f = r.map some → Yields next' (mk s) r
  | [], r, s, hy, hr => by
    obtain rfl : r = [] := by simpa using hr.symm
    intro n
    induction n generalizing s with
    | zero => exact ⟨mk s, rfl⟩
    | succ n ih =>
      obtain ⟨s', h1, h2⟩ := hy.unnil
      obtain ⟨s'', h3⟩ := ih s' h2
      refine ⟨s'', ?_⟩
      rw [calls, hnone _ _ h1]
      simp only [Option.bind_eq_bind, Option.bind_some, h3, List.range_succ_eq_map]
      simp [Function.comp_def]
  | a :: l, r, s, hy, hr => by
    obtain ⟨s', h1, h2⟩ := hy.uncons
    cases r with
    | nil => simp at hr
    | cons b r =>
      simp only [List.map_cons, List.cons.injEq] at hr
      exact Yields.cons (hsome _ _ _ _ h1 hr.1) (yields_map mk hnone hsome l r s' h2 hr.2)

theorem exists_map_some {A B : Type} {f : A → Option B} : ∀ {l : List A}, (∀ a ∈ l, (f a).isSome) →
    ∃ r : List B, l.map f = r.map some
  | [], _ => ⟨[], rfl⟩
  | a :: l, h => by
    obtain ⟨b, hb⟩ := Option.isSome_iff_exists.1 (h a (by simp))
    obtain ⟨r, hr⟩ := exists_map_some fun x hx => h x (List.mem_cons_of_mem _ hx)
    exact ⟨b :: r, by rw [List.map_cons, hb, hr]; rfl⟩

theorem mem_of_map_some {A B : Type} {f : A → Option B} {l : List A} {r : List B} (h : l.map f = r.map some)
    {b : B} (hb : b ∈ r) : ∃ a ∈ l, f a = some b := by
  have : some b ∈ l.map f := by rw [h]; exact List.mem_map_of_mem hb
  exact List.mem_map.1 this

theorem map_some_inj {A : Type} {l l' : List A} (h : l.map some = l'.map some) : l = l' :=
  List.map_injective_iff.2 (Option.some_injective _) h

/-- The face edges of a ring of more than one vertex. -/
theorem RingHas.faceEdges {p : Plc P Q V E F} {r fe : Nat} {ring : FaceRing} {vs : List Nat} (hb : Base p)
    (hok : (layerRing p.faceEdges p.rings).Ok) (hr : p.rings.get r = some ring) (h : RingHas p r vs)
    (he : ring.element = .faceEdge fe) :
    2 ≤ vs.length ∧ ∃ l, Yields p.faceEdgesNext (CircIter.new fe) l ∧ l.map Prod.fst = ringMem p r ∧
      (∀ x ∈ l, p.faceEdges.get x.1 = some x.2) ∧
      l.map (fun a => (p.edges.get a.2.edge).map (·.vertices)) = (cyc vs).map some ∧
      l.length < p.bound := by
  rcases h with ⟨v, -, hv⟩ | ⟨h2, -, hm⟩
  · rw [hr, Option.map_some, he] at hv
    simp at hv
  refine ⟨h2, ?_⟩
  have hne : ringMem p r ≠ [] := by
    intro h0
    rw [h0] at hm
    match vs, h2 with
    | a :: b :: vs, _ => simp [cyc] at hm
  obtain ⟨l, h1, h3, h4⟩ := faceEdges_yields hb hok hr he hne
  refine ⟨l, h1, h3, h4, ?_, ?_⟩
  · rw [← hm, ← h3, List.map_map]
    apply List.map_congr_left
    intro a ha
    simp only [Function.comp, endsOf, h4 a ha, Option.bind_some]
  · have := length_ringMem p r
    rw [← h3, List.length_map] at this
    have e : p.bound = p.rings.top + p.faceEdges.top + 2 := rfl
    omega

/-- A ring that consists of the vertices `vs`, read as vertices. -/
theorem RingHas.vertices {p : Plc P Q V E F} {r : Nat} {ring : FaceRing} {vs : List Nat} (hb : Base p)
    (hok : (layerRing p.faceEdges p.rings).Ok) (hr : p.rings.get r = some ring) (h : RingHas p r vs) :
    ∃ it l, p.ringVertices ring = some it ∧ Yields p.ringVerticesNext it l ∧ l.map Prod.fst = vs ∧
      (∀ x ∈ l, p.vertices.get x.1 = some x.2) ∧ l.length < p.bound := by
  cases he : ring.element with
  | vertex v =>
    obtain rfl : vs = [v] := by
      rcases h with ⟨w, rfl, hw⟩ | ⟨-, h3, -⟩
      · rw [hr, Option.map_some, he] at hw
        simpa using hw.symm
      · rw [hr, Option.bind_some, FaceRing.fe, he] at h3
        simp at h3
    obtain ⟨x, hx⟩ := hb.fv.exists (hb.iso r v (by rw [hr, Option.map_some, he]))
    refine ⟨.single (some (v, x)), [(v, x)], by simp [ringVertices, he, hx],
      .cons (s' := .single none) (by rfl) (.nil (by rfl)), rfl, by simpa using hx, ?_⟩
    have e : p.bound = p.rings.top + p.faceEdges.top + 2 := rfl
    simp only [List.length_cons, List.length_nil]
    omega
  | faceEdge fe =>
    obtain ⟨h2, l, h3, h4, h5, h6, h7⟩ := h.faceEdges hb hok hr he
    have hf : ∀ a ∈ l, ∃ e x, p.edges.get a.2.edge = some e ∧ p.vertices.get e.vertices.1 = some x := by
      intro a ha
      have : (p.edges.get a.2.edge).map (·.vertices) ∈ (cyc vs).map some := by
        rw [← h6]; exact List.mem_map_of_mem (f := fun a => (p.edges.get a.2.edge).map (·.vertices)) ha
      obtain ⟨b, -, hb'⟩ := List.mem_map.1 this
      obtain ⟨e, he', hev⟩ := Option.map_eq_some_iff.1 hb'.symm
      obtain ⟨x, hx⟩ := hb.fv.exists (hb.ends a.2.edge e.vertices (by rw [he']; rfl)).1
      exact ⟨e, x, he', hx⟩
    obtain ⟨l', hl'⟩ := exists_map_some (f := fun a : Nat × FaceEdge => (p.edges.get a.2.edge).bind fun e =>
      (p.vertices.get e.vertices.1).map fun x => (e.vertices.1, x)) (l := l) (by
        intro a ha
        obtain ⟨e, x, h1, h2⟩ := hf a ha
        simp [h1, h2])
    refine ⟨.multiple (CircIter.new fe), l', by simp [ringVertices, he], ?_, ?_, ?_, ?_⟩
    · refine yields_map RingVertices.multiple ?_ ?_ l l' _ h3 hl'
      · intro s s' h
        simp [ringVerticesNext, h]
      · intro s a b s' h hb'
        obtain ⟨e, h8, h9⟩ := Option.bind_eq_some_iff.1 hb'
        obtain ⟨x, h10, rfl⟩ := Option.map_eq_some_iff.1 h9
        simp [ringVerticesNext, h, h8, h10]
    · apply map_some_inj
      rw [← cyc_fst h2, List.map_map, List.map_map,
        show (some ∘ Prod.fst : Nat × Nat → Option Nat) = Option.map Prod.fst ∘ some from rfl,
        ← List.map_map (l := cyc vs), ← h6, List.map_map,
        show (some ∘ Prod.fst : Nat × Vertex P V → Option Nat) = Option.map Prod.fst ∘ some from rfl,
        ← List.map_map (l := l'), ← hl', List.map_map]
      apply List.map_congr_left
      intro a ha
      obtain ⟨e, x, h1, h2⟩ := hf a ha
      simp [h1, h2]
    · intro y hy
      obtain ⟨a, ha, hay⟩ := mem_of_map_some hl' hy
      obtain ⟨e, h8, h9⟩ := Option.bind_eq_some_iff.1 hay
      obtain ⟨x, h10, rfl⟩ := Option.map_eq_some_iff.1 h9
      exact h10
    · have := congrArg List.length hl'
      rw [List.length_map, List.length_map] at this
      omega

/-- A ring that consists of the vertices `vs`, read as edges. -/
theorem RingHas.edges {p : Plc P Q V E F} {r : Nat} {ring : FaceRing} {vs : List Nat} (hb : Base p)
    (hok : (layerRing p.faceEdges p.rings).Ok) (hr : p.rings.get r = some ring) (h : RingHas p r vs) :
    ∃ l, Yields p.ringEdgesNext (ringEdges ring) l ∧ l.map (·.2.vertices) = cyc vs ∧
      (∀ x ∈ l, p.edges.get x.1 = some x.2) ∧ l.length < p.bound := by
  cases he : ring.element with
  | vertex v =>
    obtain rfl : vs = [v] := by
      rcases h with ⟨w, rfl, hw⟩ | ⟨-, h3, -⟩
      · rw [hr, Option.map_some, he] at hw
        simpa using hw.symm
      · rw [hr, Option.bind_some, FaceRing.fe, he] at h3
        simp at h3
    refine ⟨[], by rw [ringEdges, he]; exact .nil (by rfl), rfl, by simp, ?_⟩
    have e : p.bound = p.rings.top + p.faceEdges.top + 2 := rfl
    simp only [List.length_nil]
    omega
  | faceEdge fe =>
    obtain ⟨h2, l, h3, h4, h5, h6, h7⟩ := h.faceEdges hb hok hr he
    have hf : ∀ a ∈ l, ∃ e, p.edges.get a.2.edge = some e := by
      intro a ha
      have : (p.edges.get a.2.edge).map (·.vertices) ∈ (cyc vs).map some := by
        rw [← h6]; exact List.mem_map_of_mem (f := fun a => (p.edges.get a.2.edge).map (·.vertices)) ha
      obtain ⟨b, -, hb'⟩ := List.mem_map.1 this
      obtain ⟨e, he', hev⟩ := Option.map_eq_some_iff.1 hb'.symm
      exact ⟨e, he'⟩
    obtain ⟨l', hl'⟩ := exists_map_some (f := fun a : Nat × FaceEdge =>
      (p.edges.get a.2.edge).map fun e => (a.2.edge, e)) (l := l) (by
        intro a ha
        obtain ⟨e, h1⟩ := hf a ha
        simp [h1])
    refine ⟨l', ?_, ?_, ?_, ?_⟩
    · rw [ringEdges, he]
      refine yields_map RingEdges.multiple ?_ ?_ l l' _ h3 hl'
      · intro s s' h
        simp [ringEdgesNext, h]
      · intro s a b s' h hb'
        obtain ⟨x, h10, rfl⟩ := Option.map_eq_some_iff.1 hb'
        simp [ringEdgesNext, h, h10]
    · apply map_some_inj
      rw [← h6, List.map_map,
        show (some ∘ fun x : Nat × Edge E => x.2.vertices) = Option.map (fun x => x.2.vertices) ∘ some from rfl,
        ← List.map_map (l := l'), ← hl', List.map_map]
      apply List.map_congr_left
      intro a ha
      obtain ⟨e, h1⟩ := hf a ha
      simp [h1]
    · intro y hy
      obtain ⟨a, ha, hay⟩ := mem_of_map_some hl' hy
      obtain ⟨x, h10, rfl⟩ := Option.map_eq_some_iff.1 hay
      exact h10
    · have := congrArg List.length hl'
      rw [List.length_map, List.length_map] at this
      omega

theorem mapM_eq {A B : Type} {f : A → Option B} : ∀ {l : List A} {r : List B},
    List.Forall₂ (fun a b => f a = some b) l r → l.mapM f = some r
  | _, _, .nil => rfl
  | _, _, .cons h t => by rw [List.mapM_cons, h, mapM_eq t]; rfl

theorem forall₂_exists {A B C : Type} {R : A → C → Prop} {S : A → B → Prop} {T : B → C → Prop}
    (h : ∀ a c, R a c → ∃ b, S a b ∧ T b c) : ∀ {l : List A} {r : List C},
    List.Forall₂ R l r → ∃ m, List.Forall₂ S l m ∧ List.Forall₂ T m r
  | _, _, .nil => ⟨[], .nil, .nil⟩
  | _, _, .cons h1 t => by
    obtain ⟨b, hb, hb'⟩ := h _ _ h1
    obtain ⟨m, hm, hm'⟩ := forall₂_exists h t
    exact ⟨b :: m, .cons hb hm, .cons hb' hm'⟩

theorem forall₂_mem {A B : Type} {R : A → B → Prop} : ∀ {l : List A} {r : List B},
    List.Forall₂ R l r → ∀ {a}, a ∈ l → ∃ b ∈ r, R a b
  | _, _, .nil, _, h => by cases h
  | _, _, .cons h1 t, a, h => by
    rcases List.mem_cons.1 h with rfl | h
    · exact ⟨_, by simp, h1⟩
    · obtain ⟨b, hb, hab⟩ := forall₂_mem t h
      exact ⟨b, by simp [hb], hab⟩

/-- The rings of a face with their contents. -/
theorem face_rings {p : Plc P Q V E F} {f : Nat} {face : Face Q F} {rs : List (List Nat)} (hb : Base p)
    (hof : (layerFace p.rings p.faces).Ok) (hf : p.faces.get f = some face) (hne : rs ≠ [])
    (h : List.Forall₂ (RingHas p) (faceMem p f) rs) :
    ∃ l, Yields p.ringsNext (CircIter.new face.ring) l ∧ p.faceRings face = some l ∧
      l.map Prod.fst = faceMem p f ∧
      List.Forall₂ (fun x vs => p.rings.get x.1 = some x.2 ∧ RingHas p x.1 vs) l rs := by
  have hne' : faceMem p f ≠ [] := by
    intro h0
    rw [h0] at h
    exact hne (List.forall₂_nil_left_iff.1 h)
  obtain ⟨l, h1, h2, h3⟩ := rings_yields hb hof hf hne'
  refine ⟨l, h1, ?_, h2, ?_⟩
  · refine toList_of_yields h1 ?_
    have := length_faceMem p f
    rw [← h2, List.length_map] at this
    have e : p.bound = p.rings.top + p.faceEdges.top + 2 := rfl
    omega
  · rw [← h2, List.forall₂_map_left_iff] at h
    exact forall₂_imp (fun a b ha hab => ⟨h3 a ha, hab⟩) h

/-- The plane of a face is computed from the rings. -/
theorem calcFacePlane_ok (g : Geom P Q) {p : Plc P Q V E F} {f : Nat} {rs : List (List Nat)} {pos : Nat → Option P}
    (hb : Base p) (hor : (layerRing p.faceEdges p.rings).Ok) (hof : (layerFace p.rings p.faces).Ok)
    (hf : f < p.faces.top) (hne : rs ≠ []) (h : List.Forall₂ (RingHas p) (faceMem p f) rs)
    (hpos : ∀ v, (p.vertices.get v).map (·.position) = pos v) :
    calcFacePlane g p f = some { p with faces := p.faces.modify f fun x => { x with
      plane := g.plane (rs.flatten.filterMap pos) ((rs.flatMap cyc).filterMap fun vs =>
        (pos vs.1).bind fun x => (pos vs.2).map fun y => (x, y)) } } := by
  obtain ⟨face, hface⟩ := hb.fs.exists hf
  obtain ⟨l, -, h1, -, h2⟩ := face_rings hb hof hface hne h
  obtain ⟨vss, h3, h4⟩ := forall₂_exists (S := fun x l => p.ringVertexList x.2 = some l)
    (T := fun l vs => l.map Prod.fst = vs ∧ ∀ x ∈ l, p.vertices.get x.1 = some x.2) (by
      intro x vs hx
      obtain ⟨it, l, k1, k2, k3, k4, k5⟩ := hx.2.vertices hb hor hx.1
      refine ⟨l, ?_, k3, k4⟩
      simp only [ringVertexList, Option.bind_eq_bind, k1, Option.bind_some]
      exact toList_of_yields k2 k5) h2
  obtain ⟨ess, h5, h6⟩ := forall₂_exists (S := fun x l => p.ringEdgeList x.2 = some l)
    (T := fun l vs => l.map (·.2.vertices) = cyc vs ∧ ∀ x ∈ l, p.edges.get x.1 = some x.2) (by
      intro x vs hx
      obtain ⟨l, k2, k3, k4, k5⟩ := hx.2.edges hb hor hx.1
      exact ⟨l, toList_of_yields k2 k5, k3, k4⟩) h2
  have e1 : vss.flatten.map (·.2.position) = rs.flatten.filterMap pos := by
    clear h5 h6 h3 h2 h h1 hne
    induction h4 with
    | nil => rfl
    | @cons l vs _ _ h _ ih =>
      rw [List.flatten_cons, List.flatten_cons, List.map_append, List.filterMap_append, ih]
      congr 1
      rw [← h.1, List.filterMap_map]
      have : ∀ x ∈ l, (pos ∘ Prod.fst) x = some x.2.position := by
        intro x hx
        simp only [Function.comp, ← hpos, h.2 x hx, Option.map_some]
      rw [List.filterMap_congr this, ← List.filterMap_eq_map]
      rfl
  have hends : ∀ x : Nat × Edge E, p.edges.get x.1 = some x.2 → ∃ y z,
      p.vertices.get x.2.vertices.1 = some y ∧ p.vertices.get x.2.vertices.2 = some z := by
    intro x hx
    obtain ⟨ha, hc⟩ := hb.ends x.1 x.2.vertices (by rw [hx]; rfl)
    obtain ⟨y, hy⟩ := hb.fv.exists ha
    obtain ⟨z, hz⟩ := hb.fv.exists hc
    exact ⟨y, z, hy, hz⟩
  have hmem : ∀ x ∈ ess.flatten, p.edges.get x.1 = some x.2 := by
    clear h5
    intro x hx
    obtain ⟨l, hl, hxl⟩ := List.mem_flatten.1 hx
    obtain ⟨vs, -, h7⟩ := forall₂_mem h6 hl
    exact h7.2 x hxl
  have e3 : ess.flatten.map (·.2.vertices) = rs.flatMap cyc := by
    clear h5 h2 h h1 hne hmem h3 h4 e1
    induction h6 with
    | nil => rfl
    | cons h _ ih => rw [List.flatten_cons, List.map_append, List.flatMap_cons, ih, h.1]
  have e2 : ess.flatten.mapM (fun e => do
      let x ← p.vertices.get e.2.vertices.1
      let y ← p.vertices.get e.2.vertices.2
      return (x.position, y.position)) = some ((rs.flatMap cyc).filterMap fun vs =>
        (pos vs.1).bind fun x => (pos vs.2).map fun y => (x, y)) := by
    rw [← e3, List.filterMap_map]
    generalize ess.flatten = es at hmem
    induction es with
    | nil => rfl
    | cons x es ih =>
      obtain ⟨y, z, hy, hz⟩ := hends x (hmem x (by simp))
      rw [List.mapM_cons, ih fun a ha => hmem a (by simp [ha])]
      rw [List.filterMap_cons_some (b := (y.position, z.position))]
      · simp [hy, hz]
      · simp [← hpos, hy, hz]
  simp only [calcFacePlane, Option.bind_eq_bind, hface, Option.bind_some, h1, mapM_eq h3, mapM_eq h5]
  simp only [Option.bind_eq_bind] at e2
  rw [e2, Option.bind_some, IdMap.upd_eq _ (by rw [hface]; rfl), e1]
  rfl

end Tet.Plc
