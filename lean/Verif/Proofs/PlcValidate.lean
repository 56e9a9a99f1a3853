import Verif.Proofs.PlcSim
import Verif.Spec.PlcValidate

/-!
# Validation reads the contents
-/

namespace Tet.Plc
open Linked PlcSpec Spec
variable {P Q V E F D B : Type} {g : Geom P Q} {d : E} {p : Plc P Q V E F} {c : Contents P V E F}

theorem filterMap_range {A : Type} {f : Nat → Option A} {n : Nat} (h : ∀ i < n, (f i).isSome) :
    ((List.range n).filterMap f).map some = (List.range n).map f := by
  obtain ⟨r, hr⟩ := exists_map_some (f := f) (l := List.range n) fun a ha => h a (List.mem_range.1 ha)
  have : (List.range n).filterMap f = r := by
    have e : (List.range n).filterMap f = ((List.range n).map f).filterMap id := by
      rw [List.filterMap_map]; rfl
    rw [e, hr, List.filterMap_map]
    simp
  rw [this, hr]

theorem keys_full {A : Type} {m : IdMap A} (h : m.Full) : m.keys = List.range m.top := by
  unfold IdMap.keys IdMap.iter
  have : ∀ n, n ≤ m.top → ((List.range n).filterMap fun i => (m.get i).map fun v => (i, v)).map Prod.fst =
      List.range n := by
    intro n
    induction n with
    | zero => intro _; rfl
    | succ n ih =>
      intro hn
      obtain ⟨x, hx⟩ := h.exists (show n < m.top by omega)
      rw [List.range_succ, List.filterMap_append, List.map_append, ih (by omega)]
      simp [hx]
  exact this _ (le_refl _)

/-- A loop over the faces. -/
theorem foldlM_faces {A β : Type} {m : IdMap A} (h : m.Full) (f : List β → Nat × A → Option (List β))
    (s : Nat → List β) (hs : ∀ l i x, m.get i = some x → f l (i, x) = some (l ++ s i)) :
    m.iter.foldlM f [] = some ((List.range m.top).flatMap s) := by
  have : ∀ n, n ≤ m.top → ((List.range n).filterMap fun i => (m.get i).map fun v => (i, v)).foldlM f [] =
      some ((List.range n).flatMap s) := by
    intro n
    induction n with
    | zero => intro _; rfl
    | succ n ih =>
      intro hn
      obtain ⟨x, hx⟩ := h.exists (show n < m.top by omega)
      rw [List.range_succ, List.filterMap_append, List.foldlM_append, ih (by omega),
        List.flatMap_append]
      simp [hx, hs _ _ _ hx]
  exact this _ (le_refl _)

/-- The vertices of a face, read through the iterators. -/
theorem Rep.lists (h : Rep g d p c) {f : Nat} {face : Face Q F} (hf : p.faces.get f = some face) :
    ∃ rings value vss rs, c.faces[f]? = some (rings, value) ∧ face.plane = c.plane g rings ∧
      p.faceRings face = some rs ∧ rs.mapM (fun r => p.ringVertexList r.2) = some vss ∧
      vss.map (fun r => r.map Prod.fst) = rings ∧
      vss.map (fun r => r.map (·.2.position)) = rings.map (fun r => r.filterMap c.pos) ∧
      ∀ r ∈ vss, ∀ x ∈ r, p.vertices.get x.1 = some x.2 := by
  have h1 := h.value f
  rw [hf, Option.map_some] at h1
  obtain ⟨⟨rings, value⟩, hr, hv⟩ := Option.map_eq_some_iff.1 h1.symm
  have h2 := h.plane f
  rw [hf, hr, Option.map_some, Option.map_some, Option.some.injEq] at h2
  obtain ⟨hne, -⟩ := h.allowed _ (List.mem_of_getElem? hr)
  obtain ⟨l, -, h3, -, h4⟩ := face_rings h.base h.face hf hne (h.has f _ hr)
  obtain ⟨vss, h5, h6⟩ := forall₂_exists (S := fun x l => p.ringVertexList x.2 = some l)
    (T := fun l vs => l.map Prod.fst = vs ∧ ∀ x ∈ l, p.vertices.get x.1 = some x.2) (by
      intro x vs hx
      obtain ⟨it, l, k1, k2, k3, k4, k5⟩ := hx.2.vertices h.base h.ring hx.1
      refine ⟨l, ?_, k3, k4⟩
      simp only [ringVertexList, Option.bind_eq_bind, k1, Option.bind_some]
      exact toList_of_yields k2 k5) h4
  change List.Forall₂ _ vss rings at h6
  refine ⟨rings, value, vss, l, hr, h2, h3, mapM_eq h5, ?_, ?_, ?_⟩
  · clear h5 h4 h3 h2 hr h1 hne hv
    induction h6 with
    | nil => rfl
    | cons h _ ih => rw [List.map_cons, ih, h.1]
  · clear h5 h4 h3 h2 hr h1 hne hv
    induction h6 with
    | nil => rfl
    | @cons r vs _ _ h' _ ih =>
      rw [List.map_cons, List.map_cons, ih]
      congr 1
      rw [← h'.1, List.filterMap_map]
      have : ∀ x ∈ r, (c.pos ∘ Prod.fst) x = some x.2.position := by
        intro x hx
        simp only [Function.comp, ← h.pos, h'.2 x hx, Option.map_some]
      rw [List.filterMap_congr this, ← List.filterMap_eq_map]
      rfl
  · intro r hr
    obtain ⟨vs, -, h7⟩ := forall₂_mem h6 hr
    exact h7.2

theorem Rep.faceVertexLists (h : Rep g d p c) {f : Nat} {face : Face Q F} (hf : p.faces.get f = some face) :
    ∃ rings value vss, c.faces[f]? = some (rings, value) ∧ face.plane = c.plane g rings ∧
      p.faceVertexLists face = some vss ∧ vss.map (fun r => r.map Prod.fst) = rings ∧
      vss.map (fun r => r.map (·.2.position)) = rings.map fun r => r.filterMap c.pos := by
  obtain ⟨rings, value, vss, rs, h1, h2, h3, h4, h5, h6, -⟩ := h.lists hf
  refine ⟨rings, value, vss, h1, h2, ?_, h5, h6⟩
  simp only [Plc.faceVertexLists, Option.bind_eq_bind, h3, Option.bind_some, h4]

theorem Rep.degenerate (h : Rep g d p c) : p.degenerate = some c.degenerate := by
  unfold Plc.degenerate
  rw [foldlM_faces h.base.fs _ (fun f => if (c.faces[f]?).any fun x => x.1.all fun r => r.length < 3 then [f] else [])]
  · rw [h.ftop, Contents.degenerate]
    congr 1
    generalize List.range c.faces.length = l
    induction l with
    | nil => rfl
    | cons a l ih =>
      rw [List.flatMap_cons, List.filter_cons, ih]
      split <;> simp
  · intro l f face hf
    obtain ⟨rings, value, vss, rs, h1, h2, h3, h4, h5, -, -⟩ := h.lists hf
    have e : p.fullFace face = some (!(rings.all fun r => r.length < 3)) := by
      simp only [fullFace, Option.bind_eq_bind, h3, Option.bind_some, h4, Option.pure_def, ← h5, List.all_map]
      congr 1
      rw [List.not_all_eq_any_not]
      congr 1
      funext r
      by_cases hr : r.length < 3
      · simp [hr]
      · simp [hr]; omega
    simp only [e, h1, Option.bind_eq_bind, Option.bind_some, Option.pure_def, Option.any_some]
    cases rings.all fun r => r.length < 3 <;> simp

theorem Rep.fails (h : Rep g d p c) (t : Tests P Q D) {f : Nat} {face : Face Q F} (hf : p.faces.get f = some face) :
    ∃ rings value, c.faces[f]? = some (rings, value) ∧ p.fails t face = some (c.offPlane g t rings) := by
  obtain ⟨rings, value, vss, rs, h1, h2, h3, h4, h5, -, h7⟩ := h.lists hf
  refine ⟨rings, value, h1, ?_⟩
  simp only [Plc.fails, Option.bind_eq_bind, h3, Option.bind_some, h4, Option.pure_def, Contents.offPlane, h2,
    Option.some.injEq]
  have : rings.flatten = vss.flatten.map Prod.fst := by rw [← h5, List.map_flatten]
  rw [this, List.filterMap_map, List.filterMap_map]
  apply List.filterMap_congr
  intro x hx
  obtain ⟨r, hr, hxr⟩ := List.mem_flatten.1 hx
  simp only [Function.comp, ← h.pos, h7 r hr x hxr, Option.map_some, Option.bind_some]

theorem Rep.twisted (h : Rep g d p c) (t : Tests P Q D) : p.twisted t = some (c.twisted g t) := by
  unfold Plc.twisted
  rw [foldlM_faces h.base.fs _ (fun f => (((c.faces[f]?).map fun x =>
    (f, c.offPlane g t x.1)).toList.filter fun x => x.2 ≠ []))]
  · rw [h.ftop, Contents.twisted]
    congr 1
    generalize List.range c.faces.length = l
    induction l with
    | nil => rfl
    | cons a l ih =>
      rw [List.flatMap_cons, ih, List.filterMap_cons]
      cases c.faces[a]? with
      | none => rfl
      | some x =>
        simp only [Option.map_some, Option.toList_some, List.filter_cons, List.filter_nil]
        split <;> rfl
  · intro l f face hf
    obtain ⟨rings, value, h1, h2⟩ := h.fails t hf
    simp only [h2, h1, Option.bind_eq_bind, Option.bind_some, Option.pure_def, Option.map_some, Option.toList_some]
    cases c.offPlane g t rings <;> simp

/-! ## Bounding boxes -/

theorem Rep.pos_some (h : Rep g d p c) {v : Nat} (hv : v < c.vertices.length) :
    ∃ x, p.position v = some x ∧ c.pos v = some x := by
  have : (c.pos v).isSome := by simp [Contents.pos, hv]
  obtain ⟨x, hx⟩ := Option.isSome_iff_exists.1 this
  exact ⟨x, by rw [position, h.pos, hx], hx⟩

theorem Rep.edge_some (h : Rep g d p c) {e : Nat} {vs : Nat × Nat} {value : E} (he : c.edges[e]? = some (vs, value)) :
    ∃ x y z, p.edges.get e = some x ∧ x.vertices = vs ∧ p.position vs.1 = some y ∧ c.pos vs.1 = some y ∧
      p.position vs.2 = some z ∧ c.pos vs.2 = some z := by
  have h1 := h.edges e
  rw [he] at h1
  obtain ⟨x, hx, h2⟩ := Option.map_eq_some_iff.1 h1
  simp only [Prod.mk.injEq] at h2
  obtain ⟨ha, hb⟩ := h.base.ends e x.vertices (by rw [hx]; rfl)
  have ht := h.vtop
  rw [ht, h2.1] at ha hb
  obtain ⟨y, hy, hy'⟩ := h.pos_some ha
  obtain ⟨z, hz, hz'⟩ := h.pos_some hb
  exact ⟨x, y, z, hx, h2.1, hy, hy', hz, hz'⟩

theorem mapM_map {A B C : Type} {f : A → Option B} {g : A → C} {k : C → B} : ∀ {l : List A},
    (∀ a ∈ l, f a = some (k (g a))) → l.mapM f = some (l.map fun a => k (g a))
  | [], _ => rfl
  | a :: l, h => by
    rw [List.mapM_cons, h a (by simp), mapM_map (l := l) (f := f) (g := g) (k := k) fun b hb => h b (by simp [hb])]
    rfl

theorem Rep.leaves (h : Rep g d p c) (b : Boxes P B) :
    p.leaves b = some (c.elements.map fun x => (x, c.box b x)) := by
  have hv : p.vertices.keys.mapM (p.vertexBound b) =
      some ((List.range c.vertices.length).map fun v => (Element.vertex v, c.box b (.vertex v))) := by
    rw [keys_full h.base.fv, h.vtop]
    refine mapM_map (g := Element.vertex) (k := fun x => (x, c.box b x)) ?_
    intro v hv
    obtain ⟨x, h1, h2⟩ := h.pos_some (List.mem_range.1 hv)
    simp [vertexBound, h1, Contents.box, Contents.points, Contents.corners, h2]
  have he : p.edges.keys.mapM (p.edgeBound b) =
      some ((List.range c.edges.length).map fun v => (Element.edge v, c.box b (.edge v))) := by
    rw [keys_full h.base.fe, h.etop]
    refine mapM_map (g := Element.edge) (k := fun x => (x, c.box b x)) ?_
    intro e he
    obtain ⟨⟨vs, value⟩, hx⟩ : ∃ x, c.edges[e]? = some x :=
      ⟨_, List.getElem?_eq_getElem (List.mem_range.1 he)⟩
    obtain ⟨x, y, z, h1, h2, h3, h4, h5, h6⟩ := h.edge_some hx
    simp [edgeBound, h1, h2, h3, h5, Contents.box, Contents.points, Contents.corners, hx, h4, h6]
  have hf : p.faces.keys.mapM (p.faceBound b) =
      some ((List.range c.faces.length).map fun v => (Element.face v, c.box b (.face v))) := by
    rw [keys_full h.base.fs, h.ftop]
    refine mapM_map (g := Element.face) (k := fun x => (x, c.box b x)) ?_
    intro f hf
    rw [List.mem_range, ← h.ftop] at hf
    obtain ⟨face, hface⟩ := h.base.fs.exists hf
    obtain ⟨rings, value, vss, h1, h2, h3, h4, h5⟩ := h.faceVertexLists hface
    have : vss.flatten.map (·.2.position) = rings.flatten.filterMap c.pos := by
      rw [List.map_flatten, h5, List.filterMap_flatten]
    simp [faceBound, hface, h3, Contents.box, Contents.points, Contents.corners, h1, ← this]
  simp only [Plc.leaves, Option.bind_eq_bind, hv, he, hf, Option.bind_some, Option.pure_def, Contents.elements,
    List.map_append, List.map_map]
  rfl

/-! ## The visitor -/

theorem mem_elements {x : Element} : x ∈ c.elements ↔ match x with
    | .vertex v => v < c.vertices.length
    | .edge e => e < c.edges.length
    | .face f => f < c.faces.length := by
  cases x <;> simp [Contents.elements]

theorem pairLt_iff {a b a' b' : Nat} : pairLt (a, b) (a', b') = decide ([a, b] < [a', b']) := by
  rw [Bool.eq_iff_iff]
  simp only [pairLt, Bool.or_eq_true, Bool.and_eq_true, decide_eq_true_eq, List.cons_lt_cons_iff,
    List.not_lt_nil, and_false, or_false]

theorem edge_of_mem {e : Nat} (h : Element.edge e ∈ c.elements) : ∃ a b value, c.edges[e]? = some ((a, b), value) :=
  ⟨_, _, _, List.getElem?_eq_getElem (mem_elements.1 h)⟩

theorem Rep.face_of_mem (h : Rep g d p c) {f : Nat} (hf : Element.face f ∈ c.elements) :
    ∃ face rings value vss, p.faces.get f = some face ∧ c.faces[f]? = some (rings, value) ∧
      face.plane = c.plane g rings ∧ p.faceVertexLists face = some vss ∧
      vss.flatten.map Prod.fst = rings.flatten ∧
      vss.map (fun r => r.map (·.2.position)) = rings.map fun r => r.filterMap c.pos := by
  have := mem_elements.1 hf
  rw [← h.ftop] at this
  obtain ⟨face, hface⟩ := h.base.fs.exists this
  obtain ⟨rings, value, vss, h1, h2, h3, h4, h5⟩ := h.faceVertexLists hface
  exact ⟨face, rings, value, vss, hface, h1, h2, h3, by rw [List.map_flatten, h4], h5⟩

theorem Rep.visit (h : Rep g d p c) (t : Tests P Q D) (b : Boxes P B) {x y : Element} (hx : x ∈ c.elements)
    (hy : y ∈ c.elements) :
    p.visit t b (x, c.box b x) (y, c.box b y) = some (c.report g t b x y) := by
  unfold Plc.visit Contents.report
  cases hm : b.meet (c.box b x) (c.box b y) with
  | false => simp [hm]
  | true =>
    simp only [hm, Bool.not_true, Bool.false_eq_true, if_false]
    cases x with
    | vertex v =>
      obtain ⟨px, hp1, hp2⟩ := h.pos_some (mem_elements.1 hx)
      cases y with
      | vertex w =>
        obtain ⟨py, hp3, hp4⟩ := h.pos_some (mem_elements.1 hy)
        simp only [hp1, hp3, Option.bind_eq_bind, Option.bind_some, Option.pure_def, Contents.before, Contents.near,
          hp2, hp4, Contents.corners, List.mem_singleton, decide_eq_true_eq, forall_eq, and_true]
        by_cases hvw : v < w
        · rw [if_pos hvw, if_pos ⟨hvw, by omega⟩]
        · rw [if_neg hvw, if_neg (by tauto)]
      | edge e =>
        obtain ⟨a, a', value, he⟩ := edge_of_mem hy
        obtain ⟨x, y, z, h1, h2, h3, h4, h5, h6⟩ := h.edge_some he
        simp only [h1, h2, hp1, h3, h5, Option.bind_eq_bind, Option.bind_some, Option.pure_def, Contents.before,
          Contents.near, hp2, h4, h6, he, Contents.corners, Option.map_some, Option.getD_some, List.mem_singleton,
          List.mem_cons, List.not_mem_nil, or_false, forall_eq, and_true, true_and]
        by_cases hv : v = a ∨ v = a'
        · rw [if_neg (by simp; tauto), if_neg (by tauto)]
        · rw [if_pos (by simp; tauto), if_pos hv]
      | face f =>
        obtain ⟨face, rings, value, vss, h1, h2, h3, h4, h5, h6⟩ := h.face_of_mem hy
        have e : (vss.flatten.any fun x => decide (v = x.1)) = decide (v ∈ rings.flatten) := by
          rw [← h5, Bool.eq_iff_iff]
          simp only [List.any_eq_true, decide_eq_true_eq, List.mem_map]
          constructor
          · rintro ⟨x, hx', h'⟩; exact ⟨x, hx', h'.symm⟩
          · rintro ⟨x, hx', h'⟩; exact ⟨x, hx', h'.symm⟩
        simp only [h1, h4, hp1, Option.bind_eq_bind, Option.bind_some, Option.pure_def, Contents.before, e, h3, h6,
          Contents.near, hp2, h2, Contents.corners, Option.map_some, Option.getD_some, List.mem_singleton, forall_eq,
          and_true, true_and]
        by_cases hv : v ∈ rings.flatten
        · rw [if_neg (by simpa using hv), if_neg (by simpa using hv)]
        · rw [if_pos (by simpa using hv), if_pos hv]
          cases t.vf (c.plane g rings) px with
          | none => rfl
          | some dist =>
            cases t.inFace (c.plane g rings) px (rings.map fun r => r.filterMap c.pos) <;> rfl
    | edge e =>
      obtain ⟨a, a', value, he⟩ := edge_of_mem hx
      obtain ⟨x, q, z, h1, h2, h3, h4, h5, h6⟩ := h.edge_some he
      cases y with
      | vertex w => simp [Contents.before]
      | edge e' =>
        obtain ⟨k, k', value', he'⟩ := edge_of_mem hy
        obtain ⟨x', y', z', h1', h2', h3', h4', h5', h6'⟩ := h.edge_some he'
        simp only [h1, h2, h3, h5, h1', h2', h3', h5', Option.bind_eq_bind, Option.bind_some, Option.pure_def,
          Contents.before, Contents.near, h4, h6, h4', h6', he, he', Contents.corners, Option.map_some,
          Option.getD_some, List.mem_cons, List.not_mem_nil, or_false, forall_eq_or_imp, forall_eq, and_true,
          pairLt_iff]
        by_cases hv : [a, a'] < [k, k'] ∧ ¬(a = k ∨ a = k') ∧ ¬(a' = k ∨ a' = k')
        · rw [if_pos, if_pos]
          · simpa using hv
          · simp only [Bool.and_eq_true, Bool.not_eq_true', Bool.or_eq_false_iff, decide_eq_true_eq,
              decide_eq_false_iff_not]
            tauto
        · rw [if_neg, if_neg]
          · simpa using hv
          · simp only [Bool.and_eq_true, Bool.not_eq_true', Bool.or_eq_false_iff, decide_eq_true_eq,
              decide_eq_false_iff_not]
            tauto
      | face f =>
        obtain ⟨face, rings, value, vss, k1, k2, k3, k4, k5, k6⟩ := h.face_of_mem hy
        have e : (vss.flatten.any fun x => decide (a = x.1) || decide (a' = x.1)) =
            decide (a ∈ rings.flatten ∨ a' ∈ rings.flatten) := by
          rw [← k5, Bool.eq_iff_iff]
          simp only [List.any_eq_true, decide_eq_true_eq, List.mem_map, Bool.or_eq_true]
          constructor
          · rintro ⟨x, hx, rfl | rfl⟩
            · exact .inl ⟨x, hx, rfl⟩
            · exact .inr ⟨x, hx, rfl⟩
          · rintro (⟨x, hx, rfl⟩ | ⟨x, hx, rfl⟩)
            · exact ⟨x, hx, .inl rfl⟩
            · exact ⟨x, hx, .inr rfl⟩
        simp only [h1, h2, h3, h5, k1, k4, Option.bind_eq_bind, Option.bind_some, Option.pure_def, Contents.before,
          e, k3, k6, Contents.near, h4, h6, he, k2, Contents.corners, Option.map_some, Option.getD_some,
          List.mem_cons, List.not_mem_nil, or_false, forall_eq_or_imp, forall_eq, and_true, true_and]
        by_cases hv : a ∈ rings.flatten ∨ a' ∈ rings.flatten
        · rw [if_neg (by simp only [hv, decide_true, Bool.not_true]; simp), if_neg (by tauto)]
        · rw [if_pos (by simp only [hv, decide_false, Bool.not_false]), if_pos (by tauto)]
          cases t.ef (c.plane g rings) (q, z) with
          | none => rfl
          | some point =>
            simp only [Option.bind_some]
            cases t.inFace (c.plane g rings) point (rings.map fun r => r.filterMap c.pos) <;> rfl
    | face f => cases y <;> simp [Contents.before]

theorem Rep.intersections (h : Rep g d p c) (t : Tests P Q D) (b : Boxes P B)
    {pairs : List ((Element × B) × (Element × B))}
    (hp : ∀ x ∈ pairs, x.1 ∈ c.elements.map (fun x => (x, c.box b x)) ∧
      x.2 ∈ c.elements.map fun x => (x, c.box b x)) :
    p.intersections t b pairs = some (pairs.filterMap fun x => c.report g t b x.1.1 x.2.1) := by
  have : ∀ l, pairs.foldlM (fun l x => do
      match ← p.visit t b x.1 x.2 with
      | none => return l
      | some i => return l ++ [i]) l = some (l ++ pairs.filterMap fun x => c.report g t b x.1.1 x.2.1) := by
    induction pairs with
    | nil => intro l; simp
    | cons x pairs ih =>
      intro l
      obtain ⟨h1, h2⟩ := hp x (by simp)
      obtain ⟨y, hy, h3⟩ := List.mem_map.1 h1
      obtain ⟨z, hz, h4⟩ := List.mem_map.1 h2
      have hv := h.visit t b hy hz
      rw [h3, h4] at hv
      rw [List.foldlM_cons]
      simp only [Option.bind_eq_bind, Option.pure_def] at ih ⊢
      rw [hv, Option.bind_some]
      cases hr : c.report g t b y z with
      | none =>
        rw [Option.bind_some, ih (fun w hw => hp w (by simp [hw])), List.filterMap_cons, ← h3, ← h4, hr]
      | some i =>
        rw [Option.bind_some, ih (fun w hw => hp w (by simp [hw])), List.filterMap_cons, ← h3, ← h4, hr]
        simp
  exact this []

end Tet.Plc
