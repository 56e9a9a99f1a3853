import Verif.Spec.Obj
import Verif.Props.Plc

/-!
# Properties of loading an OBJ file: C91
-/

namespace Tet.Plc
open Linked PlcSpec Spec
variable {P Q V E F X : Type} {g : Geom P Q} {point : X → P} {dv : V} {de : E} {df : F}
  {data : ObjData X} {p p' : Plc P Q V E F}

/-- The call made for a polygon. -/
def polyOp (de : E) (df : F) : List Nat → Op P V E F
  | [a, b] => .edge (a, b) de
  | l => .face [l] df

theorem objPoly_eq (g : Geom P Q) (p : Plc P Q V E F) (l : List Nat) :
    objPoly g de df p l = (call g p (polyOp de df (l.map asU32))).map Prod.fst := by
  rcases l with - | ⟨a, - | ⟨b, - | ⟨c, l⟩⟩⟩ <;>
    simp [objPoly, polyOp, call, Option.map_eq_bind, Function.comp_def]

theorem foldlM_flatten {A B : Type} (f : B → A → Option B) (l : List (List A)) (b : B) :
    l.foldlM (fun b x => x.foldlM f b) b = l.flatten.foldlM f b := by
  induction l generalizing b with
  | nil => rfl
  | cons x l ih =>
    rw [List.foldlM_cons, List.flatten_cons, List.foldlM_append]
    cases h : x.foldlM f b with
    | none => rfl
    | some b' => exact ih b'

/-- The calls made for a file. -/
def objOps (point : X → P) (dv : V) (de : E) (df : F) (data : ObjData X) : List (Op P V E F) :=
  data.position.map (fun x => .vertex (point x) dv) ++
    (polys data).map fun l => polyOp de df (l.map asU32)

/-- Making some calls, forgetting the ids. -/
def callAll (g : Geom P Q) (p : Plc P Q V E F) (ops : List (Op P V E F)) : Option (Plc P Q V E F) :=
  ops.foldlM (fun p op => (call g p op).map Prod.fst) p

theorem fromObj_eq (data : ObjData X) :
    fromObj g point dv de df data = callAll g (new de : Plc P Q V E F) (objOps point dv de df data) := by
  unfold fromObj callAll objOps
  rw [List.foldlM_append]
  simp only [List.foldlM_map]
  congr 1
  · congr 1
    funext p x
    simp [call, Option.map_eq_bind, Function.comp_def]
  · funext p
    rw [foldlM_flatten (fun p (group : List (List Nat)) => group.foldlM (objPoly g de df) p),
      foldlM_flatten]
    congr 1
    funext p l
    exact objPoly_eq g p l

theorem calls_of_callAll : ∀ {l : List (Op P V E F)} {q ops'},
    Calls g p ops' q → callAll g q l = some p' → Calls g p (ops' ++ l) p'
  | [], q, ops', h, hr => by
    obtain rfl : q = p' := Option.some.inj hr
    simpa using h
  | op :: l, q, ops', h, hr => by
    unfold callAll at hr
    rw [List.foldlM_cons] at hr
    obtain ⟨x, hx, hr⟩ := Option.bind_eq_some_iff.1 hr
    obtain ⟨y, hy, rfl⟩ := Option.map_eq_some_iff.1 hx
    have := calls_of_callAll (h.snoc (id := y.2) hy) hr
    simpa using this

theorem calls_fromObj (h : fromObj g point dv de df data = some p) :
    Calls g (new de) (objOps point dv de df data) p :=
  calls_of_callAll (ops' := []) .nil (by
    show callAll g _ (objOps point dv de df data) = some p
    rw [← fromObj_eq]; exact h)

theorem polyOp_two (a b : Nat) : polyOp de df [a, b] = (.edge (a, b) de : Op P V E F) := rfl

theorem polyOp_face {l : List Nat} (h : l.length ≠ 2) : polyOp de df l = (.face [l] df : Op P V E F) := by
  rcases l with - | ⟨a, - | ⟨b, - | ⟨c, l⟩⟩⟩ <;> first | rfl | simp at h

theorem adds_polyOp (l : List Nat) (vs : Nat × Nat) :
    (polyOp de df l : Op P V E F).adds vs ↔ vs ∈ polyEdges l := by
  rcases l with - | ⟨a, - | ⟨b, - | ⟨c, l⟩⟩⟩ <;> simp [polyOp, Op.adds, polyEdges, eq_comm]

theorem mem_putNew {l : List ((Nat × Nat) × E)} {vs : Nat × Nat} {x : E} {y : (Nat × Nat) × E}
    (h : y ∈ putNew l vs x) : y ∈ l ∨ y.2 = x := by
  unfold putNew at h
  split at h
  · exact .inl h
  · rcases List.mem_append.1 h with h | h
    · exact .inl h
    · rw [List.mem_singleton] at h; exact .inr (by rw [h])

theorem mem_foldl {d : E} {y : (Nat × Nat) × E} : ∀ {new : List (Nat × Nat)} {l : List ((Nat × Nat) × E)},
    y ∈ new.foldl (fun l vs => putNew l vs d) l → y ∈ l ∨ y.2 = d
  | [], _, h => .inl h
  | _ :: _, _, h => (mem_foldl (List.foldl_cons .. ▸ h)).elim (fun h => mem_putNew h) .inr

theorem value_apply {d : E} {c : Contents P V E F} {l : List Nat} {y : (Nat × Nat) × E}
    (hc : ∀ y ∈ c.edges, y.2 = d) (h : y ∈ (c.apply d (polyOp d df l)).edges) : y.2 = d := by
  have hf : ∀ rings, y ∈ (c.apply d (.face rings df)).edges → y.2 = d := fun rings h =>
    (mem_foldl h).elim (hc y) id
  rcases l with - | ⟨a, - | ⟨b, - | ⟨e, l⟩⟩⟩
  · exact hf _ h
  · exact hf _ h
  · simp only [polyOp, Contents.apply, put] at h
    split at h
    · obtain ⟨z, hz, rfl⟩ := List.mem_map.1 h
      split
      · rfl
      · exact hc z hz
    · rcases List.mem_append.1 h with h | h
      · exact hc y h
      · rw [List.mem_singleton] at h; rw [h]
  · exact hf _ h

theorem value_objOps {y : (Nat × Nat) × E}
    (h : y ∈ (contents de (objOps point dv de df data : List (Op P V E F))).edges) : y.2 = de := by
  have key1 : ∀ (l : List X) (c : Contents P V E F),
      ((l.map fun x => (.vertex (point x) dv : Op P V E F)).foldl (Contents.apply de) c).edges = c.edges := by
    intro l
    induction l with
    | nil => intro c; rfl
    | cons x l ih => intro c; rw [List.map_cons, List.foldl_cons, ih]; rfl
  have key2 : ∀ (l : List (List Nat)) (c : Contents P V E F), (∀ y ∈ c.edges, y.2 = de) →
      ∀ y ∈ ((l.map fun x => (polyOp de df (x.map asU32) : Op P V E F)).foldl
        (Contents.apply de) c).edges, y.2 = de := by
    intro l
    induction l with
    | nil => intro c hc; exact hc
    | cons x l ih =>
      intro c hc
      rw [List.map_cons, List.foldl_cons]
      exact ih _ fun y hy => value_apply hc hy
  unfold contents objOps at h
  rw [List.foldl_append] at h
  refine key2 _ _ ?_ y h
  rw [key1]
  intro y hy
  simp [Contents.empty] at hy

theorem faces_objOps :
    (contents de (objOps point dv de df data : List (Op P V E F))).faces =
      ((polys data).filter fun l => l.length ≠ 2).map fun l => ([l.map asU32], df) := by
  rw [(C50_contents _ _).2]
  unfold objOps
  rw [List.filterMap_append, List.filterMap_map, List.filterMap_map]
  have : ∀ l : List X, l.filterMap ((fun | .face rings value => some (rings, value) | _ => none) ∘
      fun x => (.vertex (point x) dv : Op P V E F)) = [] := by
    intro l; induction l <;> simp_all
  refine (congrArg (· ++ _) (this _)).trans ?_
  rw [List.nil_append]
  induction polys data with
  | nil => rfl
  | cons l ls ih =>
    by_cases hl : l.length = 2
    · obtain ⟨a, b, rfl⟩ := List.length_eq_two.1 hl
      simpa [polyOp] using ih
    · have : polyOp de df (l.map asU32) = (.face [l.map asU32] df : Op P V E F) :=
        polyOp_face (by simpa using hl)
      rw [List.filterMap_cons, Function.comp_apply, this, List.filter_cons]
      simp only [ne_eq, hl, not_false_eq_true, decide_true, if_true, List.map_cons]
      rw [← ih]

theorem vertices_objOps :
    (contents de (objOps point dv de df data : List (Op P V E F))).vertices =
      data.position.map fun x => (point x, dv) := by
  rw [(C50_contents _ _).1]
  unfold objOps
  rw [List.filterMap_append, List.filterMap_map, List.filterMap_map]
  have h1 : ∀ l : List X, l.filterMap ((fun | .vertex pos value => some (pos, value) | _ => none) ∘
      fun x => (.vertex (point x) dv : Op P V E F)) = l.map fun x => (point x, dv) := by
    intro l; induction l <;> simp_all
  have h2 : ∀ l : List (List Nat), l.filterMap ((fun | .vertex pos value => some (pos, value) | _ => none) ∘
      fun x => (polyOp de df (x.map asU32) : Op P V E F)) = [] := by
    intro l
    induction l with
    | nil => rfl
    | cons x l ih =>
      rcases x with - | ⟨a, - | ⟨b, - | ⟨c, x⟩⟩⟩ <;> simpa [polyOp] using ih
  exact (congrArg₂ (· ++ ·) (h1 _) (h2 _)).trans (List.append_nil _)

/-! ## C91 -/

/-- C91: the vertices of a loaded file are its positions, in order. -/
theorem C91_vertices (h : fromObj g point dv de df data = some p) (v : Nat) :
    (p.vertices.get v).map (fun x => (x.position, x.value)) =
      (data.position[v]?).map fun x => (point x, dv) := by
  rw [(C50_values (calls_fromObj h)).1, vertices_objOps, List.getElem?_map]

/-- C91: the edges of a loaded file are its polygons with two corners, in their direction, and the
sides of its other polygons; each is there once, with the default value. -/
theorem C91_edges (h : fromObj g point dv de df data = some p) :
    (∀ vs, (p.edgeId vs).isSome ↔ ∃ l ∈ polys data, vs ∈ polyEdges (l.map asU32)) ∧
    (∀ e x, p.edges.get e = some x → x.value = de ∧ p.edgeId x.vertices = some e) := by
  have hc := calls_fromObj h
  refine ⟨fun vs => ?_, fun e x hx => ?_⟩
  · rw [C49_found hc]
    constructor
    · rintro ⟨op, hop, ha⟩
      rcases List.mem_append.1 hop with hop | hop
      · obtain ⟨y, -, rfl⟩ := List.mem_map.1 hop
        exact ha.elim
      · obtain ⟨l, hl, rfl⟩ := List.mem_map.1 hop
        exact ⟨l, hl, (adds_polyOp _ _).1 ha⟩
    · rintro ⟨l, hl, hv⟩
      exact ⟨_, List.mem_append_right _ (List.mem_map_of_mem hl), (adds_polyOp _ _).2 hv⟩
  · obtain ⟨h1, h2, h3⟩ := C49_edges hc
    have he := (h2 e).symm
    rw [hx, Option.map_some] at he
    refine ⟨value_objOps (List.mem_of_getElem? he), ?_⟩
    have hi : ((contents de (objOps point dv de df data : List (Op P V E F))).edges.map Prod.fst)[e]? =
        some x.vertices := by rw [List.getElem?_map, he]; rfl
    rw [h1, if_pos (List.mem_of_getElem? hi)]
    obtain ⟨hlt, hi⟩ := List.getElem?_eq_some_iff.1 hi
    rw [← hi, h3.idxOf_getElem]

/-- C91: the faces of a loaded file are its other polygons, in order; each has one ring, with the
corners of the polygon in order, and the default value.  There are no more faces. -/
theorem C91_faces (h : fromObj g point dv de df data = some p) (f : Nat) :
    match ((polys data).filter fun l => l.length ≠ 2)[f]? with
    | some l => ∃ face, p.faces.get f = some face ∧ face.value = df ∧
        ∃ it vs, Yields p.faceVerticesNext (CircIter.new face.ring) [it] ∧
          Yields p.ringVerticesNext it vs ∧ vs.map Prod.fst = l.map asU32 ∧
          ∀ x ∈ vs, p.vertices.get x.1 = some x.2
    | none => p.faces.get f = none := by
  have hc := calls_fromObj h
  have hf := faces_objOps (point := point) (dv := dv) (de := de) (df := df) (data := data)
  split
  · rename_i l hl
    obtain ⟨face, h1, h2, ⟨its, h3, h4⟩, -⟩ := C50_faces hc (f := f) (rings := [l.map asU32]) (value := df)
      (by rw [hf, List.getElem?_map, hl]; rfl)
    obtain ⟨it, rest, ⟨vs, h5, h6, h7⟩, h8, rfl⟩ := List.forall₂_cons_right_iff.1 h4
    obtain rfl := List.forall₂_nil_right_iff.1 h8
    exact ⟨face, h1, h2, it, vs, h3, h5, h6, h7⟩
  · rename_i hl
    have := (C50_values hc).2 f
    rw [hf, List.getElem?_map, hl] at this
    simpa using this

theorem length_foldl (d : E) : ∀ (new : List (Nat × Nat)) (l : List ((Nat × Nat) × E)),
    (new.foldl (fun l vs => putNew l vs d) l).length ≤ l.length + new.length
  | [], _ => by simp
  | vs :: new, l => by
    refine (length_foldl d new _).trans ?_
    have : (putNew l vs d).length ≤ l.length + 1 := by unfold putNew; split <;> simp
    show (putNew l vs d).length + _ ≤ _
    rw [List.length_cons]; omega

theorem length_cyc (l : List Nat) : (cyc l).length ≤ l.length := by
  rcases l with - | ⟨a, - | ⟨b, l⟩⟩ <;> simp [cyc]

theorem callAll_polys (ls : List (List Nat)) : ∀ (p : Plc P Q V E F) (c : Contents P V E F), Rep g de p c →
    c.edges.length + ls.flatten.length ≤ idMax → c.faces.length + ls.length ≤ idMax →
    c.rings.length + ls.length ≤ idMax → c.rings.flatten.length + ls.flatten.length ≤ idMax →
    ((callAll g p (ls.map (polyOp de df))).isSome ↔ ∀ l ∈ ls, l ≠ [] ∧ ∀ v ∈ l, v < c.vertices.length) := by
  induction ls with
  | nil => intro p c _ _ _ _ _; simp [callAll]
  | cons l ls ih =>
    intro p c r h1 h2 h3 h4
    simp only [List.flatten_cons, List.length_append, List.length_cons] at h1 h2 h3 h4
    rw [List.map_cons, List.forall_mem_cons]
    have hal : c.allows (polyOp de df l) ↔ l ≠ [] ∧ ∀ v ∈ l, v < c.vertices.length := by
      by_cases hl : l.length = 2
      · obtain ⟨a, b, rfl⟩ := List.length_eq_two.1 hl
        simp [polyOp, Contents.allows]
      · rw [polyOp_face hl]; simp [Contents.allows]
    have hroom : c.room (polyOp de df l) := by
      by_cases hl : l.length = 2
      · obtain ⟨a, b, rfl⟩ := List.length_eq_two.1 hl
        exact .inl (by simp at h1; omega)
      · rw [polyOp_face hl]
        refine ⟨by omega, ?_, ?_, ?_⟩ <;>
          simp only [List.flatten_cons, List.flatten_nil, List.append_nil, List.length_singleton] <;> omega
    rw [← hal]
    cases hcall : call g p (polyOp de df l) with
    | none =>
      have : ¬c.allows (polyOp de df l) := fun ha => by
        have := call_isSome r ha hroom
        rw [hcall] at this; simp at this
      simp [callAll, hcall, this]
    | some y =>
      obtain ⟨r', -, ha⟩ := r.call (p' := y.1) (id := y.2) hcall
      have := ih y.1 _ r' ?_ ?_ ?_ ?_
      · have hv : (c.apply de (polyOp de df l)).vertices = c.vertices := by
          by_cases hl : l.length = 2
          · obtain ⟨a, b, rfl⟩ := List.length_eq_two.1 hl; rfl
          · rw [polyOp_face hl]; rfl
        rw [hv] at this
        rw [← this]
        simp [callAll, hcall, ha]
      all_goals
        by_cases hl : l.length = 2
        · obtain ⟨a, b, rfl⟩ := List.length_eq_two.1 hl
          first
          | (have : (put c.edges (a, b) de).length ≤ c.edges.length + 1 := by unfold put; split <;> simp
             simp only [polyOp, Contents.apply, Contents.rings, List.length_cons, List.length_nil] at *
             omega)
        · rw [polyOp_face hl]
          have e1 := length_foldl de (([l].flatMap cyc)) c.edges
          have e2 := length_cyc l
          simp only [Contents.apply, Contents.rings, List.flatMap_append, List.flatMap_cons,
            List.flatMap_nil, List.append_nil, List.length_append, List.length_cons, List.length_nil,
            List.flatten_append, List.flatten_cons, List.flatten_nil] at *
          omega

/-- C91: as long as there are ids, loading panics exactly if a polygon has no corners or a corner
whose index, as a 32-bit number, is not the index of a position. -/
theorem C91_panics (hv : data.position.length ≤ idMax) (hp : (polys data).length ≤ idMax)
    (hc : (polys data).flatten.length ≤ idMax) :
    (fromObj g point dv de df data : Option (Plc P Q V E F)).isSome ↔
      ∀ l ∈ polys data, l ≠ [] ∧ ∀ v ∈ l, asU32 v < data.position.length := by
  have key : ∀ (l : List X) (p : Plc P Q V E F) (c : Contents P V E F), Rep g de p c →
      c.vertices.length + l.length ≤ idMax →
      ∃ p', callAll g p (l.map fun x => .vertex (point x) dv) = some p' ∧
        Rep g de p' { c with vertices := c.vertices ++ l.map fun x => (point x, dv) } := by
    intro l
    induction l with
    | nil => intro p c r _; exact ⟨p, rfl, by simpa using r⟩
    | cons x l ih =>
      intro p c r hlen
      rw [List.length_cons] at hlen
      obtain ⟨y, hy⟩ := Option.isSome_iff_exists.1 (call_isSome (op := .vertex (point x) dv) r trivial
        (show c.vertices.length < idMax by omega))
      obtain ⟨p', h1, h2⟩ := ih y.1 _ (r.call (p' := y.1) (id := y.2) hy).1
        (by simp [Contents.apply]; omega)
      refine ⟨p', by simpa [callAll, hy] using h1, ?_⟩
      simpa [Contents.apply] using h2
  obtain ⟨p', h1, r⟩ := key data.position (new de) .empty (rep_new g de) (by simpa [Contents.empty] using hv)
  have h2 := callAll_polys (g := g) (de := de) (df := df) ((polys data).map (List.map asU32)) p' _ r
  have hfl : ((polys data).map (List.map asU32)).flatten.length = (polys data).flatten.length := by
    rw [← List.map_flatten, List.length_map]
  simp only [Contents.empty, List.length_nil, Contents.rings, List.flatMap_nil, List.flatten_nil,
    Nat.zero_add, hfl, List.length_map, List.nil_append] at h2
  have h2 := h2 hc hp hp hc
  rw [fromObj_eq]
  unfold objOps
  have h3 : callAll g (new de : Plc P Q V E F) ((data.position.map fun x => .vertex (point x) dv) ++
      (polys data).map fun l => polyOp de df (l.map asU32)) =
      callAll g p' (((polys data).map (List.map asU32)).map (polyOp de df)) := by
    unfold callAll at h1 ⊢
    rw [List.foldlM_append, h1, List.map_map]
    rfl
  rw [h3, h2]
  simp

/-- A file with a tetrahedron's worth of corners, a triangle, a square and an edge, in two groups. -/
def exampleObj : ObjData Nat := ⟨[10, 11, 12, 13], [[[[0, 1, 2], [3, 1]], [[0, 1, 2, 3]]], [[[2]]]]⟩

example : ∃ p : Plc Nat Nat Nat Nat Nat,
    fromObj Example.geom (· + 1) 5 6 7 exampleObj = some p ∧
    (p.vertices.get 3).map (fun x => (x.position, x.value)) = some (14, 5) ∧
    (p.edgeId (3, 1)).isSome ∧ ¬(p.edgeId (1, 3)).isSome ∧ p.faces.get 3 = none := by
  have h := (C91_panics (g := Example.geom) (point := (· + 1)) (dv := 5) (de := 6) (df := 7)
    (data := exampleObj) (by decide) (by decide) (by decide)).2 (by decide)
  obtain ⟨p, hp⟩ := Option.isSome_iff_exists.1 h
  refine ⟨p, hp, by rw [C91_vertices hp]; rfl, (((C91_edges hp).1 _).2 (by decide)),
    fun h => absurd (((C91_edges hp).1 _).1 h) (by decide), by simpa [polys, exampleObj] using C91_faces hp 3⟩

/-- A corner that is not there. -/
example : ¬(fromObj Example.geom (· + 1) 5 6 7 ⟨[10, 11], [[[[0, 2]]]]⟩ :
    Option (Plc Nat Nat Nat Nat Nat)).isSome :=
  fun h => absurd ((C91_panics (by decide) (by decide) (by decide)).1 h) (by decide)

end Tet.Plc
