import Verif.Proofs.PlcSim

/-!
# Properties of the piecewise linear complex: C49, C50, C51, C52
-/

namespace Tet.Plc
open Linked PlcSpec Spec

/-! ## An example: a square with a hole and an isolated vertex, and a triangle on one of its edges -/

namespace Example

/-- The sum of everything, for want of geometry. -/
def geom : Geom Nat Nat := ⟨0, fun ps es => ps.sum + (es.map fun e => e.1 * e.2).sum⟩

def ops : List (Op Nat Nat Nat Nat) :=
  (List.range 9).map (fun i => .vertex (i * i) i) ++
  [.edge (0, 1) 7, .face [[0, 1, 2, 3], [4, 5, 6], [7]] 5, .edgeIfAbsent (0, 1) 8, .edge (1, 2) 9,
    .face [[1, 0, 8]] 6, .edge (1, 0) 10]

/-- Running the calls. -/
def runs (p : Plc Nat Nat Nat Nat Nat) : List (Op Nat Nat Nat Nat) → Option (Plc Nat Nat Nat Nat Nat)
  | [] => some p
  | op :: l => (call geom p op).bind fun x => runs x.1 l

theorem calls_of_runs {p p' : Plc Nat Nat Nat Nat Nat} : ∀ {l : List (Op Nat Nat Nat Nat)} {q ops'},
    Calls geom p ops' q → runs q l = some p' → Calls geom p (ops' ++ l) p'
  | [], q, ops', h, hr => by
    obtain rfl : q = p' := Option.some.inj hr
    simpa using h
  | op :: l, q, ops', h, hr => by
    obtain ⟨x, hx, hr⟩ := Option.bind_eq_some_iff.1 hr
    have := calls_of_runs (h.snoc (id := x.2) hx) hr
    simpa using this

/-- The calls succeed. -/
theorem calls : ∃ p, Calls geom (new 0) ops p := by
  have : (runs (new 0) ops).isSome := by decide +kernel
  obtain ⟨p, hp⟩ := Option.isSome_iff_exists.1 this
  have := calls_of_runs .nil hp
  exact ⟨p, this⟩

end Example

variable {P Q V E F : Type} {g : Geom P Q} {d : E} {ops : List (Op P V E F)} {p : Plc P Q V E F}

theorem rep_contents (h : Calls g (new d) ops p) : Rep g d p (contents d ops) := rep_calls (rep_new g d) h

/-! ## C49 -/

/-- C49: an edge is found by its end points, in this direction, exactly if it is there; its id, end
points and value are those of the contents, and no edge is there twice. -/
theorem C49_edges (h : Calls g (new d) ops p) :
    (∀ vs, p.edgeId vs = if vs ∈ (contents d ops).edges.map Prod.fst then
      some (((contents d ops).edges.map Prod.fst).idxOf vs) else none) ∧
    (∀ e, (p.edges.get e).map (fun x => (x.vertices, x.value)) = (contents d ops).edges[e]?) ∧
    ((contents d ops).edges.map Prod.fst).Nodup := by
  have r := rep_contents h
  refine ⟨?_, r.edges, r.edges.nodup r.base⟩
  intro vs
  have hm := r.edges.mem r.base vs
  unfold edgeId
  split
  · rename_i hv
    obtain ⟨e, he⟩ := Option.isSome_iff_exists.1 (hm.1 hv)
    rw [he, ← r.edges.edgeMap r.base he]
  · rename_i hv
    rw [hm, Option.not_isSome_iff_eq_none] at hv
    exact hv

theorem keys_putNew (l : List ((Nat × Nat) × E)) (vs ws : Nat × Nat) (x : E) :
    ws ∈ (putNew l vs x).map Prod.fst ↔ ws ∈ l.map Prod.fst ∨ vs = ws := by
  unfold putNew
  split
  · constructor
    · exact .inl
    · rintro (h | rfl)
      · exact h
      · assumption
  · simp [eq_comm]

theorem map_fst_put (l : List ((Nat × Nat) × E)) (vs : Nat × Nat) (x : E) :
    (put l vs x).map Prod.fst = (putNew l vs x).map Prod.fst := by
  unfold put putNew
  split
  · rw [List.map_map]
    apply List.map_congr_left
    rintro ⟨ws, y⟩ _
    simp only [Function.comp]
    split <;> simp_all
  · rfl

theorem keys_foldl (d : E) (ws : Nat × Nat) : ∀ (new : List (Nat × Nat)) (l : List ((Nat × Nat) × E)),
    ws ∈ (new.foldl (fun l vs => putNew l vs d) l).map Prod.fst ↔ ws ∈ l.map Prod.fst ∨ ws ∈ new
  | [], l => by simp
  | vs :: new, l => by
    rw [List.foldl_cons, keys_foldl d ws new, keys_putNew, List.mem_cons, or_assoc, eq_comm]

theorem keys_apply (d : E) (c : Contents P V E F) (op : Op P V E F) (ws : Nat × Nat) :
    ws ∈ (c.apply d op).edges.map Prod.fst ↔ ws ∈ c.edges.map Prod.fst ∨ op.adds ws := by
  cases op with
  | vertex pos value => simp [Contents.apply, Op.adds]
  | edge vs value =>
    simp only [Contents.apply, map_fst_put, Op.adds]
    exact keys_putNew _ _ _ _
  | edgeIfAbsent vs value => exact keys_putNew _ _ _ _
  | face rings value =>
    simp only [Contents.apply, Op.adds, keys_foldl, List.mem_flatMap]

theorem keys_foldl_apply (d : E) (ws : Nat × Nat) : ∀ (ops : List (Op P V E F)) (c : Contents P V E F),
    ws ∈ (ops.foldl (Contents.apply d) c).edges.map Prod.fst ↔
      ws ∈ c.edges.map Prod.fst ∨ ∃ op ∈ ops, op.adds ws
  | [], c => by simp
  | op :: ops, c => by
    rw [List.foldl_cons, keys_foldl_apply d ws ops, keys_apply]
    simp [or_assoc]

/-- C49: an edge is found exactly if some call added it or used it in a face. -/
theorem C49_found (h : Calls g (new d) ops p) (vs : Nat × Nat) :
    (p.edgeId vs).isSome ↔ ∃ op ∈ ops, op.adds vs := by
  rw [(C49_edges h).1]
  have := keys_foldl_apply d vs ops (Contents.empty : Contents P V E F)
  simp only [Contents.empty, List.map_nil, List.not_mem_nil, false_or] at this
  rw [← this]
  unfold contents
  split
  · rename_i h; exact iff_of_true rfl h
  · rename_i h; exact iff_of_false (by simp) h

/-- C49: the id returned for an edge is the old one if it was there, otherwise the next; and so for
vertices and faces. -/
theorem C49_ids (h : Calls g (new d) ops p) {op : Op P V E F} {p' : Plc P Q V E F} {id : Nat}
    (hc : call g p op = some (p', id)) : id = (contents d ops).result op :=
  ((rep_contents h).call hc).2.1

theorem key_putNew {l : List ((Nat × Nat) × E)} (vs : Nat × Nat) (x : E) {i : Nat} {y : (Nat × Nat) × E}
    (h : l[i]? = some y) : (putNew l vs x)[i]? = some y := by
  unfold putNew
  split
  · exact h
  · rw [List.getElem?_append_left (List.getElem?_eq_some_iff.1 h).1, h]

theorem key_foldl (d : E) {i : Nat} {y : (Nat × Nat) × E} : ∀ (new : List (Nat × Nat)) {l : List ((Nat × Nat) × E)},
    l[i]? = some y → (new.foldl (fun l vs => putNew l vs d) l)[i]? = some y
  | [], _, h => h
  | vs :: new, _, h => key_foldl d new (key_putNew vs d h)

/-- C49: a call keeps all edges with id and end points, and also the value unless it is `add_edge`
with these end points; that sets the value, and adding the edge of a face does not. -/
theorem C49_keeps (h : Calls g (new d) ops p) {op : Op P V E F} {p' : Plc P Q V E F} {id : Nat}
    (hc : call g p op = some (p', id)) {e : Nat} {x : Edge E} (he : p.edges.get e = some x) :
    ∃ x', p'.edges.get e = some x' ∧ x'.vertices = x.vertices ∧
      (∀ value, op = .edge x.vertices value → x'.value = value) ∧
      ((∀ value, op ≠ .edge x.vertices value) → x'.value = x.value) := by
  have r := rep_contents h
  obtain ⟨r', -, -⟩ := r.call hc
  have h1 := r.edges e
  rw [he, Option.map_some] at h1
  suffices hs : ∃ y, ((contents d ops).apply d op).edges[e]? = some y ∧ y.1 = x.vertices ∧
      (∀ value, op = .edge x.vertices value → y.2 = value) ∧
      ((∀ value, op ≠ .edge x.vertices value) → y.2 = x.value) by
    obtain ⟨y, hy, h2, h3, h4⟩ := hs
    rw [← r'.edges e] at hy
    obtain ⟨x', hx', rfl⟩ := Option.map_eq_some_iff.1 hy
    exact ⟨x', hx', h2, h3, h4⟩
  cases op with
  | vertex pos value => exact ⟨_, h1.symm, rfl, by simp, by simp⟩
  | edgeIfAbsent vs value => exact ⟨_, key_putNew _ _ h1.symm, rfl, by simp, by simp⟩
  | face rings value => exact ⟨_, key_foldl _ _ h1.symm, rfl, by simp, by simp⟩
  | edge vs value =>
    by_cases hv : vs ∈ (contents d ops).edges.map Prod.fst
    · simp only [Contents.apply, put, if_pos hv, List.getElem?_map, ← h1, Option.map_some]
      by_cases hxv : x.vertices = vs
      · refine ⟨_, rfl, ?_, ?_, ?_⟩
        · simp [hxv]
        · intro value' hop
          cases hop
          simp
        · intro hop
          exact absurd (by rw [hxv]) (hop value)
      · refine ⟨_, rfl, ?_, ?_, ?_⟩
        · simp [hxv]
        · intro value' hop
          cases hop
          exact absurd rfl hxv
        · intro _
          simp [hxv]
    · simp only [Contents.apply, put, if_neg hv]
      rw [List.getElem?_append_left (List.getElem?_eq_some_iff.1 h1.symm).1]
      refine ⟨_, h1.symm, rfl, ?_, by simp⟩
      intro value' hop
      cases hop
      exact absurd (List.mem_map.2 ⟨_, List.mem_of_getElem? h1.symm, rfl⟩) hv

/-- The example: the value given first, values replaced by `add_edge`, both directions. -/
example : (contents 0 Example.ops).edges =
    [((0, 1), 7), ((1, 2), 9), ((2, 3), 0), ((3, 0), 0), ((4, 5), 0), ((5, 6), 0), ((6, 4), 0),
      ((1, 0), 10), ((0, 8), 0), ((8, 1), 0)] := by decide +kernel

example : ∃ p, Calls Example.geom (new 0) Example.ops p ∧ p.edgeId (1, 0) = some 7 ∧
    p.edgeId (2, 1) = none := by
  obtain ⟨p, hp⟩ := Example.calls
  refine ⟨p, hp, ?_, ?_⟩
  · rw [(C49_edges hp).1]
    decide +kernel
  · rw [(C49_edges hp).1]
    decide +kernel

/-! ## C50 -/

/-- C50: the contents list the vertices and faces that were added, in order. -/
theorem C50_contents (d : E) (ops : List (Op P V E F)) :
    (contents d ops).vertices =
      ops.filterMap (fun | .vertex pos value => some (pos, value) | _ => none) ∧
    (contents d ops).faces =
      ops.filterMap (fun | .face rings value => some (rings, value) | _ => none) := by
  have key : ∀ (ops : List (Op P V E F)) (c : Contents P V E F),
      (ops.foldl (Contents.apply d) c).vertices =
        c.vertices ++ ops.filterMap (fun | .vertex pos value => some (pos, value) | _ => none) ∧
      (ops.foldl (Contents.apply d) c).faces =
        c.faces ++ ops.filterMap (fun | .face rings value => some (rings, value) | _ => none) := by
    intro ops
    induction ops with
    | nil => intro c; simp
    | cons op ops ih =>
      intro c
      obtain ⟨h1, h2⟩ := ih (c.apply d op)
      rw [List.foldl_cons, h1, h2]
      cases op <;> simp [Contents.apply]
  exact key ops Contents.empty

/-- C50: the vertices and the values of the faces are those that were given, and the plane of each
face is the one of the points and edges of its rings. -/
theorem C50_values (h : Calls g (new d) ops p) :
    (∀ v, (p.vertices.get v).map (fun x => (x.position, x.value)) = (contents d ops).vertices[v]?) ∧
    (∀ f, (p.faces.get f).map (fun x => (x.value, x.plane)) =
      ((contents d ops).faces[f]?).map fun x => (x.2, (contents d ops).plane g x.1)) := by
  have r := rep_contents h
  refine ⟨r.vertices, fun f => ?_⟩
  have h1 := r.value f
  have h2 := r.plane f
  cases ha : p.faces.get f <;> cases hb : (contents d ops).faces[f]? <;> simp_all

/-- C50: whatever else is added, the iterators give back exactly the rings of the face: in order,
each with its vertices in order from the first, and the edges between consecutive vertices. -/
theorem C50_faces (h : Calls g (new d) ops p) {f : Nat} {rings : List (List Nat)} {value : F}
    (hf : (contents d ops).faces[f]? = some (rings, value)) :
    ∃ face, p.faces.get f = some face ∧ face.value = value ∧
      (∃ its, Yields p.faceVerticesNext (CircIter.new face.ring) its ∧
        List.Forall₂ (fun it vs => ∃ l, Yields p.ringVerticesNext it l ∧ l.map Prod.fst = vs ∧
          ∀ x ∈ l, p.vertices.get x.1 = some x.2) its rings) ∧
      (∃ rs, Yields p.ringsNext (CircIter.new face.ring) rs ∧ (rs.map Prod.fst).Nodup ∧
        (∀ x ∈ rs, p.rings.get x.1 = some x.2 ∧ x.2.face = f) ∧
        List.Forall₂ (fun x vs => ∃ l, Yields p.ringEdgesNext (ringEdges x.2) l ∧
          l.map (·.2.vertices) = cyc vs ∧ ∀ x ∈ l, p.edges.get x.1 = some x.2) rs rings) := by
  have r := rep_contents h
  have hv := r.value f
  rw [hf, Option.map_some] at hv
  obtain ⟨face, hface, hval⟩ := Option.map_eq_some_iff.1 hv
  obtain ⟨hne, -⟩ := r.allowed _ (List.mem_of_getElem? hf)
  obtain ⟨l, h1, -, h2, h3⟩ := face_rings r.base r.face hface hne (r.has f _ hf)
  refine ⟨face, hface, hval, ?_, l, h1, ?_, ?_, ?_⟩
  · obtain ⟨its, h4, h5⟩ := forall₂_exists (S := fun x it => p.ringVertices x.2 = some it)
      (T := fun it vs => ∃ l, Yields p.ringVerticesNext it l ∧ l.map Prod.fst = vs ∧
          ∀ x ∈ l, p.vertices.get x.1 = some x.2) (by
        intro x vs hx
        obtain ⟨it, l, k1, k2, k3, k4, -⟩ := hx.2.vertices r.base r.ring hx.1
        exact ⟨it, k1, l, k2, k3, k4⟩) h3
    refine ⟨its, ?_, h5⟩
    refine yields_map id ?_ ?_ l its _ h1 (f := fun x => p.ringVertices x.2) ?_
    · intro s s' hs
      simp [faceVerticesNext, hs]
    · intro s a b s' hs hb
      simp [faceVerticesNext, hs, hb]
    · clear h1 h2 h3 h5
      induction h4 with
      | nil => rfl
      | cons h _ ih => rw [List.map_cons, List.map_cons, h, ih]
  · rw [h2]; exact Layer.nodup_mem _ _
  · intro x hx
    obtain ⟨vs, -, hxv⟩ := forall₂_mem h3 hx
    refine ⟨hxv.1, ?_⟩
    have : x.1 ∈ faceMem p f := by rw [← h2]; exact List.mem_map_of_mem hx
    have : (p.rings.get x.1).map (·.face) = some f := (Layer.mem_mem.1 this).2
    rw [hxv.1] at this
    simpa using this
  · refine List.Forall₂.imp ?_ h3
    intro x vs hx
    obtain ⟨l, k2, k3, k4, -⟩ := hx.2.edges r.base r.ring hx.1
    exact ⟨l, k2, k3, k4⟩

example : (contents 0 Example.ops).faces = [([[0, 1, 2, 3], [4, 5, 6], [7]], 5), ([[1, 0, 8]], 6)] := by
  decide +kernel

/-! ## C51 -/

theorem circle_of_cyclic {next prev : Nat → Option Nat} {o : Nat} {l : List Nat}
    (h : Cyclic next prev o l) : Circle next prev o l := by
  rcases h with ⟨rfl, rfl⟩ | ⟨t, rfl, h⟩
  · exact ⟨rfl, fun h => absurd rfl h⟩
  · exact ⟨rfl, fun _ => h⟩

theorem any_eq {A : Type} (o : Option A) (f : A → Nat) (k : Nat) :
    (o.any fun x => f x = k) = decide (o.map f = some k) := by
  cases o <;> simp

/-- C51: the lists of edges leaving and entering a vertex, of face edges on an edge and of a ring,
and of rings of a face are circular in both directions, and contain exactly what belongs there, in
the order of insertion. -/
theorem C51_lists (h : Calls g (new d) ops p) :
    (∀ v x, p.vertices.get v = some x →
      Circle (fun e => (p.edges.get e).map (·.nextOut)) (fun e => (p.edges.get e).map (·.prevOut))
        x.edgeOut (ids p.edges fun e => e.vertices.1 = v) ∧
      Circle (fun e => (p.edges.get e).map (·.nextIn)) (fun e => (p.edges.get e).map (·.prevIn))
        x.edgeIn (ids p.edges fun e => e.vertices.2 = v)) ∧
    (∀ e x, p.edges.get e = some x →
      Circle (fun i => (p.faceEdges.get i).map (·.nextOn)) (fun i => (p.faceEdges.get i).map (·.prevOn))
        x.faceEdge (ids p.faceEdges fun i => i.edge = e)) ∧
    (∀ r x fe, p.rings.get r = some x → x.element = .faceEdge fe →
      Circle (fun i => (p.faceEdges.get i).map (·.next)) (fun i => (p.faceEdges.get i).map (·.prev))
        fe (ids p.faceEdges fun i => i.ring = r) ∧ ids p.faceEdges (fun i => i.ring = r) ≠ []) ∧
    (∀ f x, p.faces.get f = some x →
      Circle (fun i => (p.rings.get i).map (·.next)) (fun i => (p.rings.get i).map (·.prev))
        x.ring (ids p.rings fun i => i.face = f) ∧ ids p.rings (fun i => i.face = f) ≠ []) := by
  have r := rep_contents h
  have hids : ∀ {A : Type} (m : IdMap A) (f : A → Nat) (k : Nat), ids m (fun x => f x = k) =
      (List.range m.top).filter fun i => (m.get i).map f = some k := by
    intro A m f k
    unfold ids
    exact List.filter_congr fun i _ => any_eq _ _ _
  refine ⟨?_, ?_, ?_, ?_⟩
  · intro v x hx
    constructor
    · rw [hids p.edges (fun e => e.vertices.1)]
      exact circle_of_cyclic (r.base.out v x.edgeOut (by
        show (p.vertices.get v).map _ = _
        rw [hx]; rfl))
    · rw [hids p.edges (fun e => e.vertices.2)]
      exact circle_of_cyclic (r.base.inn v x.edgeIn (by
        show (p.vertices.get v).map _ = _
        rw [hx]; rfl))
  · intro e x hx
    rw [hids p.faceEdges (fun e => e.edge)]
    exact circle_of_cyclic (r.base.on e x.faceEdge (by
      show (p.edges.get e).map _ = _
      rw [hx]; rfl))
  · intro k x fe hx hfe
    rw [hids p.faceEdges (fun e => e.ring)]
    refine ⟨circle_of_cyclic (r.ring k fe (by
      show (p.rings.get k).bind _ = _
      rw [hx]
      simp [FaceRing.fe, hfe])), ?_⟩
    -- the ring belongs to a face
    have hf := r.base.ringFace k x.face (by rw [hx]; rfl)
    rw [r.ftop] at hf
    have hF := List.getElem?_eq_getElem hf
    have hk : k ∈ faceMem p x.face := Layer.mem_mem.2 ⟨IdMap.lt_top hx, by
      show (p.rings.get k).map _ = _
      rw [hx]; rfl⟩
    obtain ⟨vs, -, hv⟩ := forall₂_mem (r.has _ _ hF) hk
    rcases hv with ⟨v, -, hv⟩ | ⟨h2, -, hm⟩
    · rw [hx, Option.map_some, hfe] at hv
      simp at hv
    · intro h0
      rw [show ringMem p k = [] from h0] at hm
      match vs, h2 with
      | a :: b :: vs, _ => simp [cyc] at hm
  · intro f x hx
    rw [hids p.rings (fun e => e.face)]
    refine ⟨circle_of_cyclic (r.face f x.ring (by
      show (p.faces.get f).map _ = _
      rw [hx]; rfl)), ?_⟩
    have hf : f < (contents d ops).faces.length := by rw [← r.ftop]; exact IdMap.lt_top hx
    have hF := List.getElem?_eq_getElem hf
    have hfa := r.has _ _ hF
    intro h0
    rw [show faceMem p f = [] from h0] at hfa
    exact (r.allowed _ (List.mem_of_getElem? hF)).1 (List.forall₂_nil_left_iff.1 hfa)

/-- C51: everything that is referred to exists, and the edge of a face edge, the ring of a face
edge, and the face of a ring refer back (see `C51_lists`).  A vertex refers to the last ring in
which it is isolated. -/
theorem C51_back (h : Calls g (new d) ops p) :
    (∀ e x, p.edges.get e = some x → (p.vertices.get x.vertices.1).isSome ∧
      (p.vertices.get x.vertices.2).isSome) ∧
    (∀ i x, p.faceEdges.get i = some x → (p.edges.get x.edge).isSome ∧
      ∃ r fe, p.rings.get x.ring = some r ∧ r.element = .faceEdge fe) ∧
    (∀ i x, p.rings.get i = some x → (p.faces.get x.face).isSome ∧
      ∀ v, x.element = .vertex v → (p.vertices.get v).isSome) ∧
    (∀ v x, p.vertices.get v = some x →
      x.ring = (ids p.rings fun r => r.element = .vertex v).getLast?.getD idMax) := by
  have r := rep_contents h
  have b := r.base
  refine ⟨?_, ?_, ?_, ?_⟩
  · intro e x hx
    obtain ⟨h1, h2⟩ := b.ends e x.vertices (by rw [hx]; rfl)
    exact ⟨b.fv.live _ h1, b.fv.live _ h2⟩
  · intro i x hx
    refine ⟨b.fe.live _ (b.feEdge i x.edge (by rw [hx]; rfl)), ?_⟩
    obtain ⟨y, fe, hy, hye⟩ := fe_isSome.1 (b.feRing i x.ring (by rw [hx]; rfl))
    exact ⟨y, fe, hy, hye⟩
  · intro i x hx
    refine ⟨b.fs.live _ (b.ringFace i x.face (by rw [hx]; rfl)), ?_⟩
    intro v hv
    exact b.fv.live _ (b.iso i v (by rw [hx, Option.map_some, hv]))
  · intro v x hx
    have := b.back v x.ring (by rw [hx]; rfl)
    rw [this]
    congr 2
    unfold isoRings ids
    refine List.filter_congr fun i _ => ?_
    cases p.rings.get i <;> simp

theorem path_append (b : Nat) : ∀ (a : Nat) (l : List Nat),
    path a (l ++ [b]) = path a l ++ [(l.getLast?.getD a, b)]
  | a, [] => rfl
  | a, c :: l => by
    rw [List.cons_append, path, path_append b c l, path, List.cons_append]
    cases l <;> simp [List.getLast?_cons]

theorem path_chain : ∀ (a : Nat) (l : List Nat), List.IsChain (fun u w => u.2 = w.1) (path a l)
  | a, [] => .nil
  | a, [b] => .singleton _
  | a, b :: c :: l => by
    have := path_chain b (c :: l)
    simp only [path] at this ⊢
    exact .cons_cons rfl this

theorem chain_succ {R S : Nat → Nat → Prop} {o i : Nat} : ∀ {l : List Nat}, List.IsChain R (l ++ [o]) →
    List.IsChain S (l ++ [o]) → i ∈ l → ∃ j ∈ l ++ [o], R i j ∧ S i j
  | [], _, _, h => by cases h
  | [a], hR, hS, h => by
    obtain rfl := List.mem_singleton.1 h
    simp only [List.cons_append, List.nil_append, List.isChain_cons_cons] at hR hS
    exact ⟨o, by simp, hR.1, hS.1⟩
  | a :: b :: l, hR, hS, h => by
    simp only [List.cons_append, List.isChain_cons_cons] at hR hS
    rcases List.mem_cons.1 h with rfl | h
    · exact ⟨b, by simp, hR.1, hS.1⟩
    · obtain ⟨j, hj, h1⟩ := chain_succ (l := b :: l) hR.2 hS.2 h
      exact ⟨j, by simp at hj ⊢; tauto, h1⟩

/-- C51: the face edges of a ring join up: each starts where the one before ends. -/
theorem C51_joined (h : Calls g (new d) ops p) {i j : Nat} {x y : FaceEdge} {e e' : Edge E}
    (hx : p.faceEdges.get i = some x) (hn : x.next = j) (hy : p.faceEdges.get j = some y)
    (he : p.edges.get x.edge = some e) (he' : p.edges.get y.edge = some e') :
    y.ring = x.ring ∧ y.prev = i ∧ e'.vertices.1 = e.vertices.2 := by
  have r := rep_contents h
  have b := r.base
  obtain ⟨z, fe, hz, hze⟩ := fe_isSome.1 (b.feRing i x.ring (by rw [hx]; rfl))
  have hi : i ∈ ringMem p x.ring := Layer.mem_mem.2 ⟨IdMap.lt_top hx, by
    show (p.faceEdges.get i).map _ = _
    rw [hx]; rfl⟩
  rcases r.ring x.ring fe (by
    show (p.rings.get x.ring).bind _ = _
    rw [hz]
    simp [FaceRing.fe, hze]) with ⟨h0, -⟩ | ⟨t, ht, hch⟩
  · rw [show ringMem p x.ring = [] from h0] at hi; cases hi
  -- the ring belongs to a face
  have hf := b.ringFace x.ring z.face (by rw [hz]; rfl)
  rw [r.ftop] at hf
  have hk : x.ring ∈ faceMem p z.face := Layer.mem_mem.2 ⟨IdMap.lt_top hz, by
    show (p.rings.get x.ring).map _ = _
    rw [hz]; rfl⟩
  obtain ⟨vs, -, hv⟩ := forall₂_mem (r.has _ _ (List.getElem?_eq_getElem hf)) hk
  rcases hv with ⟨v, -, hv⟩ | ⟨h2, -, hm⟩
  · rw [hz, Option.map_some, hze] at hv
    simp at hv
  have hch2 : List.IsChain (fun a b => ∀ u w, endsOf p a = some u → endsOf p b = some w → u.2 = w.1)
      (fe :: t ++ [fe]) := by
    match vs, h2 with
    | a :: c :: vs, _ =>
      have hm' : (fe :: t ++ [fe]).map (endsOf p) = (path a (c :: vs ++ [a, c])).map some := by
        have h3 : path a (c :: vs ++ [a, c]) = cyc (a :: c :: vs) ++ [(a, c)] := by
          rw [cyc_eq_path, show c :: vs ++ [a, c] = (c :: vs ++ [a]) ++ [c] by simp, path_append,
            List.getLast?_append]
          rfl
        rw [h3, List.map_append, List.map_append, ← hm]
        have ht' : ringMem p x.ring = fe :: t := ht
        rw [ht'] at hm ⊢
        congr 1
        have := congrArg List.head? hm
        rw [cyc_eq_path] at this
        simpa [path] using this
      have := path_chain a (c :: vs ++ [a, c])
      have h4 : List.IsChain (fun a b : Option (Nat × Nat) => ∀ u w, a = some u → b = some w → u.2 = w.1)
          ((path a (c :: vs ++ [a, c])).map some) := by
        rw [List.isChain_map]
        exact this.imp fun u w huw u' w' h1 h2 => by
          rw [← Option.some.inj h1, ← Option.some.inj h2]; exact huw
      rw [← hm', List.isChain_map] at h4
      exact h4
  obtain ⟨j', hj', hJ, hT⟩ := chain_succ hch hch2 (by
    have ht' : ringMem p x.ring = fe :: t := ht
    rw [← ht']; exact hi)
  have hJ1 : (p.faceEdges.get i).map (·.next) = some j' := hJ.1
  have hJ2 : (p.faceEdges.get j').map (·.prev) = some i := hJ.2
  rw [hx, Option.map_some, hn] at hJ1
  obtain rfl := Option.some.inj hJ1
  rw [hy] at hJ2
  refine ⟨?_, Option.some.inj hJ2, ?_⟩
  · have : j ∈ ringMem p x.ring := by
      have ht' : ringMem p x.ring = fe :: t := ht
      rw [ht']
      simpa [or_comm] using hj'
    have : (p.faceEdges.get j).map (·.ring) = some x.ring := (Layer.mem_mem.1 this).2
    rw [hy] at this
    exact Option.some.inj this
  · refine (hT e.vertices e'.vertices ?_ ?_).symm
    · simp [endsOf, hx, he]
    · simp [endsOf, hy, he']

/-- C51: if a vertex is isolated in one ring only, it refers to that ring. -/
theorem C51_isolated (h : Calls g (new d) ops p) {v r : Nat} {x : Vertex P V} {y : FaceRing}
    (hx : p.vertices.get v = some x) (hr : p.rings.get r = some y) (hy : y.element = .vertex v)
    (hone : ∀ r' y', p.rings.get r' = some y' → y'.element = .vertex v → r' = r) : x.ring = r := by
  rw [(C51_back h).2.2.2 v x hx]
  have hmem : r ∈ ids p.rings fun r => r.element = .vertex v := by
    unfold ids
    rw [List.mem_filter, List.mem_range]
    exact ⟨IdMap.lt_top hr, by simp [hr, hy]⟩
  obtain ⟨z, hz⟩ : ∃ z, (ids p.rings fun r => decide (r.element = .vertex v)).getLast? = some z := by
    cases h0 : (ids p.rings fun r => decide (r.element = .vertex v)).getLast? with
    | none => rw [List.getLast?_eq_none_iff.1 h0] at hmem; cases hmem
    | some z => exact ⟨z, rfl⟩
  rw [hz]
  have hzm := List.mem_of_getLast? hz
  unfold ids at hzm
  obtain ⟨-, hzm⟩ := List.mem_filter.1 hzm
  cases hg : p.rings.get z with
  | none => rw [hg] at hzm; simp at hzm
  | some w =>
    rw [hg] at hzm
    exact hone z w hg (by simpa using hzm)

/-- The hypothesis that the vertex is isolated in one ring only is needed: nothing prevents a vertex
from being isolated in two faces, and then it refers to the last, so that the first is not referred
back to (`assert_integrity` in the tests, src/plc.rs:1260-1266, would fail). -/
theorem C51_isolated_twice : ∃ (ops : List (Op Nat Nat Nat Nat)) (p : Plc Nat Nat Nat Nat Nat),
    Calls Example.geom (new 0) ops p ∧
    ∃ x y, p.vertices.get 3 = some x ∧ p.rings.get 1 = some y ∧ y.element = .vertex 3 ∧ x.ring = 3 := by
  have : ((Example.runs (new 0) ((List.range 4).map (fun i => .vertex i i) ++
      [.face [[0, 1, 2], [3]] 0, .face [[0, 2, 1], [3]] 0])).bind fun p =>
        (p.vertices.get 3).bind fun x => (p.rings.get 1).map fun y => (y.element, x.ring))
      = some (.vertex 3, 3) := by decide +kernel
  obtain ⟨p, hp, h⟩ := Option.bind_eq_some_iff.1 this
  obtain ⟨x, hx, h⟩ := Option.bind_eq_some_iff.1 h
  obtain ⟨y, hy, h⟩ := Option.map_eq_some_iff.1 h
  simp only [Prod.mk.injEq] at h
  exact ⟨_, p, Example.calls_of_runs .nil hp, x, y, hx, hy, h.1, h.2⟩

/-- Nothing prevents an edge from a vertex to itself either (`assert_integrity` in the tests,
src/plc.rs:1076-1080, would fail). -/
theorem C51_loop : ∃ (ops : List (Op Nat Nat Nat Nat)) (p : Plc Nat Nat Nat Nat Nat),
    Calls Example.geom (new 0) ops p ∧ ∃ x, p.edges.get 0 = some x ∧ x.vertices = (0, 0) := by
  have : ((Example.runs (new 0) [.vertex 0 0, .edge (0, 0) 0]).bind fun p =>
        (p.edges.get 0).map fun y => y.vertices) = some (0, 0) := by decide +kernel
  obtain ⟨p, hp, h⟩ := Option.bind_eq_some_iff.1 this
  obtain ⟨y, hy, h⟩ := Option.map_eq_some_iff.1 h
  exact ⟨_, p, Example.calls_of_runs .nil hp, y, hy, h⟩

/-! ## C52 -/

/-- C52: as long as there are ids, a call panics exactly if it is not allowed: a face without rings,
a ring without vertices, or a vertex that does not exist. -/
theorem C52_rejected (h : Calls g (new d) ops p) {op : Op P V E F} (hr : (contents d ops).room op) :
    (call g p op).isSome ↔ (contents d ops).allows op := by
  have r := rep_contents h
  constructor
  · intro hc
    obtain ⟨⟨p', id⟩, hp⟩ := Option.isSome_iff_exists.1 hc
    exact (r.call hp).2.2
  · intro ha
    exact call_isSome r ha hr

/-- C52: even without ids, what is not allowed is rejected. -/
theorem C52_allowed (h : Calls g (new d) ops p) {op : Op P V E F} (hc : (call g p op).isSome) :
    (contents d ops).allows op := by
  obtain ⟨⟨p', id⟩, hp⟩ := Option.isSome_iff_exists.1 hc
  exact ((rep_contents h).call hp).2.2

/-- There is room in the example. -/
example : (contents 0 Example.ops).room (.face [[0, 1, 9]] 0) := by
  refine ⟨?_, ?_, ?_, ?_⟩ <;> decide +kernel

/-- A ring with a vertex that does not exist, an empty ring, no ring; and a proper face. -/
example : ¬(contents 0 Example.ops).allows (.face [[0, 1, 9]] 0) := by
  rintro ⟨-, h⟩
  exact absurd ((h [0, 1, 9] (by simp)).2 9 (by simp)) (by decide +kernel)

example : (contents 0 Example.ops).allows (.face [[0, 1, 8], [2]] 0) :=
  ⟨by simp, by decide +kernel⟩

end Tet.Plc
