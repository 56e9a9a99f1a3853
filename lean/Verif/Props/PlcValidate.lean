import Mathlib.Data.Sym.Sym2
import Verif.Proofs.PlcValidate
import Verif.Props.Plc

/-!
# Properties of validation: C53, C54
-/

namespace Tet.Plc
open Linked PlcSpec Spec

namespace Example

/-- Some tests that tell points apart; points and planes are numbers. -/
def tests : Tests Nat Nat Nat where
  twist q x := if q + x = 18 then some x else none
  vv x y := if x = y then some 0 else none
  ve x s := if s.1 ≤ x ∧ x ≤ s.2 then some 1 else none
  ee s s' := if s.1 = s'.2 then some 2 else none
  vf q x := if x % 5 = q % 5 then some 3 else none
  ef q s := if s.1 % 5 = q % 5 then some s.1 else none
  inFace _ x l := x < l.flatten.sum
  zero := 0

/-- No boxes: everything intersects. -/
def boxes : Boxes Nat Unit := ⟨fun _ => (), fun _ _ => true⟩

/-- All pairs. -/
def bvt {B : Type} (l : List (Element × B)) : List ((Element × B) × (Element × B)) :=
  l.flatMap fun x => l.map fun y => (x, y)

theorem broad {P B : Type} (b : Boxes P B) : Broad b bvt := by
  refine ⟨?_, ?_, ?_⟩
  · intro l x hx
    simp only [bvt, List.mem_flatMap, List.mem_map] at hx
    obtain ⟨a, ha, y, hy, rfl⟩ := hx
    exact ⟨ha, hy⟩
  · intro l hl
    exact List.Nodup.product hl hl
  · intro l x y hx hy _
    simp only [bvt, List.mem_flatMap, List.mem_map]
    exact ⟨x, hx, y, hy, rfl⟩

/-- Run the calls, then validate. -/
def result (ops : List (Op Nat Nat Nat Nat)) : Option (Except (Reason Nat) Unit) :=
  (runs (new 0) ops).bind fun p => p.validate tests boxes bvt

/-- The verdict, in a type with decidable equality. -/
def verdict (ops : List (Op Nat Nat Nat Nat)) : Option (Option (Reason Nat)) :=
  (result ops).map fun r => match r with
    | .ok _ => none
    | .error e => some e

def points (l : List Nat) : List (Op Nat Nat Nat Nat) := l.map fun x => .vertex x 0

end Example

variable {P Q V E F D B : Type} {g : Geom P Q} {d : E} {ops : List (Op P V E F)} {p : Plc P Q V E F}
  {t : Tests P Q D} {b : Boxes P B} {bvt : List (Element × B) → List ((Element × B) × (Element × B))}

/-! ## C53 -/

/-- The pairs the visitor sees. -/
private def seen (b : Boxes P B) (bvt : List (Element × B) → List ((Element × B) × (Element × B)))
    (c : Contents P V E F) : List ((Element × B) × (Element × B)) :=
  bvt (c.elements.map fun x => (x, c.box b x))

private theorem validate_eq (h : Calls g (new d) ops p) (hb : Broad b bvt) :
    p.validate t b bvt = some (
      if (contents d ops).degenerate ≠ [] then .error (.degenerateFace (contents d ops).degenerate)
      else if (contents d ops).twisted g t ≠ [] then .error (.twistedFace ((contents d ops).twisted g t))
      else if (seen b bvt (contents d ops)).filterMap
          (fun x => (contents d ops).report g t b x.1.1 x.2.1) ≠ [] then
        .error (.intersects ((seen b bvt (contents d ops)).filterMap
          fun x => (contents d ops).report g t b x.1.1 x.2.1))
      else .ok ()) := by
  have r := rep_contents h
  unfold validate
  rw [r.degenerate, r.twisted t, r.leaves b]
  simp only [Option.bind_eq_bind, Option.bind_some, Option.pure_def]
  rw [r.intersections t b (hb.leaf _)]
  simp only [Option.bind_some]
  unfold seen
  generalize (contents d ops).degenerate = l1
  generalize (contents d ops).twisted g t = l2
  generalize List.filterMap _ _ = l3
  cases l1 <;> cases l2 <;> cases l3 <;> rfl

private theorem mem_seen (hb : Broad b bvt) {c : Contents P V E F} {i : Element × Element × D} :
    i ∈ (seen b bvt c).filterMap (fun x => c.report g t b x.1.1 x.2.1) ↔
      ∃ x ∈ c.elements, ∃ y ∈ c.elements, c.report g t b x y = some i := by
  rw [List.mem_filterMap]
  constructor
  · rintro ⟨⟨⟨x, bx⟩, y, by'⟩, hx, hr⟩
    obtain ⟨h1, h2⟩ := hb.leaf _ _ hx
    obtain ⟨x', h5, h3⟩ := List.mem_map.1 h1
    obtain ⟨y', h6, h4⟩ := List.mem_map.1 h2
    cases h3; cases h4
    exact ⟨x, h5, y, h6, hr⟩
  · rintro ⟨x, hx, y, hy, hr⟩
    refine ⟨((x, c.box b x), (y, c.box b y)), ?_, hr⟩
    refine hb.all _ _ _ (List.mem_map.2 ⟨x, hx, rfl⟩) (List.mem_map.2 ⟨y, hy, rfl⟩) ?_
    unfold Contents.report at hr
    split at hr
    · rename_i hc
      exact hc.2.2
    · cases hr

/-- C53: validation never panics.  A degenerate face is reported first, then twisted faces, then
intersections; the degenerate and twisted faces are listed completely, by ascending id. -/
theorem C53_order (h : Calls g (new d) ops p) (hb : Broad b bvt) :
    ∃ r, p.validate t b bvt = some r ∧
      (∀ l, r = .error (.degenerateFace l) ↔ l = (contents d ops).degenerate ∧ l ≠ []) ∧
      (∀ l, r = .error (.twistedFace l) ↔
        (contents d ops).degenerate = [] ∧ l = (contents d ops).twisted g t ∧ l ≠ []) ∧
      (∀ l, r = .error (.intersects l) →
        (contents d ops).degenerate = [] ∧ (contents d ops).twisted g t = [] ∧ l ≠ []) := by
  refine ⟨_, validate_eq h hb, ?_, ?_, ?_⟩
  · intro l
    split
    · rename_i h1
      simp only [Except.error.injEq, Reason.degenerateFace.injEq]
      constructor
      · rintro rfl; exact ⟨rfl, h1⟩
      · rintro ⟨rfl, -⟩; rfl
    · rename_i h1
      refine iff_of_false ?_ ?_
      · repeat' split
        all_goals simp
      · rintro ⟨rfl, h2⟩
        exact h1 h2
  · intro l
    split
    · rename_i h1
      refine iff_of_false (by simp) ?_
      rintro ⟨h2, -⟩
      exact h1 h2
    · rename_i h1
      split
      · rename_i h2
        simp only [Except.error.injEq, Reason.twistedFace.injEq]
        constructor
        · rintro rfl; exact ⟨not_not.1 h1, rfl, h2⟩
        · rintro ⟨-, rfl, -⟩; rfl
      · rename_i h2
        refine iff_of_false ?_ ?_
        · split <;> simp
        · rintro ⟨-, rfl, h3⟩
          exact h2 h3
  · intro l
    split
    · simp
    · rename_i h1
      split
      · simp
      · rename_i h2
        split
        · rename_i h3
          simp only [Except.error.injEq, Reason.intersects.injEq]
          rintro rfl
          exact ⟨not_not.1 h1, not_not.1 h2, h3⟩
        · simp

/-- C53: a face is listed as degenerate exactly if none of its rings has three vertices; a face is
listed as twisted exactly if some vertex fails the test against its plane, together with exactly
these vertices. -/
theorem C53_lists (g : Geom P Q) (t : Tests P Q D) (c : Contents P V E F) :
    (∀ f, f ∈ c.degenerate ↔ ∃ rings value, c.faces[f]? = some (rings, value) ∧ ∀ r ∈ rings, r.length < 3) ∧
    (∀ f l, (f, l) ∈ c.twisted g t ↔ ∃ rings value, c.faces[f]? = some (rings, value) ∧ l ≠ [] ∧
      l = (rings.flatten.filterMap fun v => (c.pos v).bind fun x =>
        (t.twist (c.plane g rings) x).map fun dist => (v, dist))) ∧
    c.degenerate.Pairwise (· < ·) ∧ ((c.twisted g t).map Prod.fst).Pairwise (· < ·) := by
  refine ⟨?_, ?_, ?_, ?_⟩
  · intro f
    simp only [Contents.degenerate, List.mem_filter, List.mem_range]
    constructor
    · rintro ⟨h1, h2⟩
      rw [List.getElem?_eq_getElem h1, Option.any_some, List.all_eq_true] at h2
      exact ⟨_, _, List.getElem?_eq_getElem h1, by simpa using h2⟩
    · rintro ⟨rings, value, h1, h2⟩
      refine ⟨(List.getElem?_eq_some_iff.1 h1).1, ?_⟩
      rw [h1, Option.any_some, List.all_eq_true]
      simpa using h2
  · intro f l
    simp only [Contents.twisted, List.mem_filter, List.mem_filterMap, List.mem_range, decide_eq_true_eq]
    constructor
    · rintro ⟨⟨f', -, h2⟩, h3⟩
      obtain ⟨⟨rings, value⟩, h4, h5⟩ := Option.map_eq_some_iff.1 h2
      cases h5
      exact ⟨rings, value, h4, h3, rfl⟩
    · rintro ⟨rings, value, h1, h2, rfl⟩
      refine ⟨⟨f, (List.getElem?_eq_some_iff.1 h1).1, ?_⟩, h2⟩
      rw [h1]
      rfl
  · exact List.pairwise_lt_range.filter _
  · rw [List.pairwise_map]
    refine List.Pairwise.filter _ ?_
    refine List.Pairwise.filterMap _ ?_ List.pairwise_lt_range
    intro i j hij x hx y hy
    obtain ⟨z, -, rfl⟩ := Option.map_eq_some_iff.1 (Option.mem_def.1 hx)
    obtain ⟨w, -, rfl⟩ := Option.map_eq_some_iff.1 (Option.mem_def.1 hy)
    exact hij

/-- C53: if intersections are reported, then exactly those of the elements without a common vertex
that are too close according to the test for their kinds and whose boxes intersect. -/
theorem C53_intersects (h : Calls g (new d) ops p) (hb : Broad b bvt) {l : List (Element × Element × D)}
    (hv : p.validate t b bvt = some (.error (.intersects l))) (x y : Element) (dist : D) :
    (x, y, dist) ∈ l ↔ x ∈ (contents d ops).elements ∧ y ∈ (contents d ops).elements ∧
      (contents d ops).before x y ∧
      (∀ v ∈ (contents d ops).corners x, v ∉ (contents d ops).corners y) ∧
      b.meet ((contents d ops).box b x) ((contents d ops).box b y) ∧
      (contents d ops).near g t x y = some dist := by
  rw [validate_eq h hb] at hv
  split at hv
  · simp at hv
  split at hv
  · simp at hv
  split at hv
  swap
  · simp at hv
  simp only [Option.some.injEq, Except.error.injEq, Reason.intersects.injEq] at hv
  rw [← hv, mem_seen hb]
  constructor
  · rintro ⟨x', hx, y', hy, hr⟩
    unfold Contents.report at hr
    split at hr
    · rename_i hc
      obtain ⟨z, hz, h1⟩ := Option.map_eq_some_iff.1 hr
      cases h1
      exact ⟨hx, hy, hc.1, hc.2.1, hc.2.2, hz⟩
    · cases hr
  · rintro ⟨hx, hy, h1, h2, h3, h4⟩
    refine ⟨x, hx, y, hy, ?_⟩
    unfold Contents.report
    rw [if_pos ⟨h1, h2, h3⟩, h4]
    rfl

/-- C53: validation succeeds exactly if every face has a ring of at least three vertices, no vertex
of a face fails the test against its plane, and no two elements without a common vertex with
intersecting boxes are too close. -/
theorem C53_ok (h : Calls g (new d) ops p) (hb : Broad b bvt) :
    p.validate t b bvt = some (.ok ()) ↔
      (∀ x ∈ (contents d ops).faces, ∃ r ∈ x.1, 3 ≤ r.length) ∧
      (∀ x ∈ (contents d ops).faces, ∀ r ∈ x.1, ∀ v ∈ r, ∀ pos, (contents d ops).pos v = some pos →
        t.twist ((contents d ops).plane g x.1) pos = none) ∧
      (∀ x ∈ (contents d ops).elements, ∀ y ∈ (contents d ops).elements, (contents d ops).before x y →
        (∀ v ∈ (contents d ops).corners x, v ∉ (contents d ops).corners y) →
        b.meet ((contents d ops).box b x) ((contents d ops).box b y) →
        (contents d ops).near g t x y = none) := by
  obtain ⟨hl1, hl2, -, -⟩ := C53_lists g t (contents d ops)
  have e1 : (contents d ops).degenerate = [] ↔ ∀ x ∈ (contents d ops).faces, ∃ r ∈ x.1, 3 ≤ r.length := by
    rw [List.eq_nil_iff_forall_not_mem]
    constructor
    · rintro hd ⟨rings, value⟩ hx
      obtain ⟨i, hi⟩ := List.mem_iff_getElem?.1 hx
      by_contra hc
      push Not at hc
      exact hd i ((hl1 i).2 ⟨rings, value, hi, hc⟩)
    · intro ha f hf
      obtain ⟨rings, value, h1, h2⟩ := (hl1 f).1 hf
      obtain ⟨r, hr, h3⟩ := ha _ (List.mem_of_getElem? h1)
      have := h2 r hr
      omega
  have e2 : (contents d ops).twisted g t = [] ↔
      ∀ x ∈ (contents d ops).faces, ∀ r ∈ x.1, ∀ v ∈ r, ∀ pos, (contents d ops).pos v = some pos →
        t.twist ((contents d ops).plane g x.1) pos = none := by
    rw [List.eq_nil_iff_forall_not_mem]
    constructor
    · rintro hd ⟨rings, value⟩ hx r hr v hv pos hpos
      obtain ⟨i, hi⟩ := List.mem_iff_getElem?.1 hx
      by_contra hc
      obtain ⟨dist, hdist⟩ := Option.ne_none_iff_exists'.1 hc
      refine hd (i, _) ((hl2 i _).2 ⟨rings, value, hi, ?_, rfl⟩)
      refine List.ne_nil_of_mem (a := (v, dist)) (List.mem_filterMap.2 ⟨v, List.mem_flatten.2 ⟨r, hr, hv⟩, ?_⟩)
      rw [hpos, Option.bind_some, hdist]
      rfl
    · rintro ha ⟨f, l⟩ hf
      obtain ⟨rings, value, h1, h2, rfl⟩ := (hl2 f l).1 hf
      apply h2
      rw [List.filterMap_eq_nil_iff]
      intro v hv
      obtain ⟨r, hr, hvr⟩ := List.mem_flatten.1 hv
      cases hpos : (contents d ops).pos v with
      | none => rfl
      | some pos =>
        rw [Option.bind_some, ha _ (List.mem_of_getElem? h1) r hr v hvr pos hpos]
        rfl
  have e3 : (seen b bvt (contents d ops)).filterMap
      (fun x => (contents d ops).report g t b x.1.1 x.2.1) = [] ↔
      ∀ x ∈ (contents d ops).elements, ∀ y ∈ (contents d ops).elements, (contents d ops).before x y →
        (∀ v ∈ (contents d ops).corners x, v ∉ (contents d ops).corners y) →
        b.meet ((contents d ops).box b x) ((contents d ops).box b y) →
        (contents d ops).near g t x y = none := by
    rw [List.eq_nil_iff_forall_not_mem]
    simp only [mem_seen hb]
    constructor
    · intro hd x hx y hy h1 h2 h3
      by_contra hc
      obtain ⟨dist, hdist⟩ := Option.ne_none_iff_exists'.1 hc
      refine hd (x, y, dist) ⟨x, hx, y, hy, ?_⟩
      unfold Contents.report
      rw [if_pos ⟨h1, h2, h3⟩, hdist]
      rfl
    · rintro ha i ⟨x, hx, y, hy, hr⟩
      unfold Contents.report at hr
      split at hr
      · rename_i hc
        rw [ha x hx y hy hc.1 hc.2.1 hc.2.2] at hr
        cases hr
      · cases hr
  rw [validate_eq h hb, ← e1, ← e2, ← e3]
  split
  · rename_i h1; simp [h1]
  rename_i h1
  split
  · rename_i h2; simp [h2]
  rename_i h2
  split
  · rename_i h3; simp only [Option.some.injEq, reduceCtorEq, false_iff]; tauto
  rename_i h3
  simp only [true_iff]
  tauto

/-! ## C54 -/

theorem before_asymm {c : Contents P V E F} {x y : Element} (h : c.before x y) : ¬ c.before y x := by
  cases x <;> cases y <;> simp_all [Contents.before]
  · omega
  · exact le_of_lt h

/-- C54: no two elements with a common vertex are ever reported. -/
theorem C54_disjoint (h : Calls g (new d) ops p) (hb : Broad b bvt) {l : List (Element × Element × D)}
    (hv : p.validate t b bvt = some (.error (.intersects l))) {i : Element × Element × D} (hi : i ∈ l) :
    ∀ v ∈ (contents d ops).corners i.1, v ∉ (contents d ops).corners i.2.1 :=
  ((C53_intersects h hb hv i.1 i.2.1 i.2.2).1 hi).2.2.2.1

/-- C54: no unordered pair of elements is reported twice. -/
theorem C54_once (h : Calls g (new d) ops p) (hb : Broad b bvt) {l : List (Element × Element × D)}
    (hv : p.validate t b bvt = some (.error (.intersects l))) : (l.map fun i => s(i.1, i.2.1)).Nodup := by
  have hbef : ∀ i ∈ l, (contents d ops).before i.1 i.2.1 := fun i hi =>
    ((C53_intersects h hb hv i.1 i.2.1 i.2.2).1 hi).2.2.1
  have hnd : (l.map fun i => (i.1, i.2.1)).Nodup := by
    rw [validate_eq h hb] at hv
    split at hv
    · simp at hv
    split at hv
    · simp at hv
    split at hv
    swap
    · simp at hv
    simp only [Option.some.injEq, Except.error.injEq, Reason.intersects.injEq] at hv
    rw [← hv, List.nodup_iff_pairwise_ne, List.pairwise_map]
    have hel : (contents d ops).elements.Nodup := by
      unfold Contents.elements
      rw [List.nodup_append, List.nodup_append]
      refine ⟨⟨?_, ?_, ?_⟩, ?_, ?_⟩
      · exact List.nodup_range.map fun _ _ h => by cases h; rfl
      · exact List.nodup_range.map fun _ _ h => by cases h; rfl
      · simp only [List.mem_map]
        rintro _ ⟨_, _, rfl⟩ _ ⟨_, _, rfl⟩
        simp
      · exact List.nodup_range.map fun _ _ h => by cases h; rfl
      · simp only [List.mem_append, List.mem_map]
        rintro _ (⟨_, _, rfl⟩ | ⟨_, _, rfl⟩) _ ⟨_, _, rfl⟩ <;> simp
    have hs : (seen b bvt (contents d ops)).Nodup := by
      refine hb.nodup _ (hel.map ?_)
      intro x y hxy
      exact (Prod.mk.inj hxy).1
    refine List.Pairwise.filterMap _ ?_ (List.nodup_iff_pairwise_ne.1 hs |>.imp_of_mem
      (S := fun x y => (x.1.1, x.2.1) ≠ (y.1.1, y.2.1)) ?_)
    · intro x y hxy i hi j hj
      unfold Contents.report at hi hj
      split at hi
      swap
      · simp at hi
      split at hj
      swap
      · simp at hj
      obtain ⟨_, _, rfl⟩ := Option.map_eq_some_iff.1 (Option.mem_def.1 hi)
      obtain ⟨_, _, rfl⟩ := Option.map_eq_some_iff.1 (Option.mem_def.1 hj)
      exact hxy
    · intro x y hx hy hne heq
      obtain ⟨h1, h2⟩ := hb.leaf _ _ hx
      obtain ⟨h3, h4⟩ := hb.leaf _ _ hy
      simp only [List.mem_map] at h1 h2 h3 h4
      obtain ⟨a1, -, h1⟩ := h1
      obtain ⟨a2, -, h2⟩ := h2
      obtain ⟨a3, -, h3⟩ := h3
      obtain ⟨a4, -, h4⟩ := h4
      apply hne
      simp only [Prod.mk.injEq] at heq
      refine Prod.ext ?_ ?_
      · rw [← h1, ← h3] at heq ⊢
        simp only at heq
        rw [heq.1]
      · rw [← h2, ← h4] at heq ⊢
        simp only at heq
        rw [heq.2]
  rw [List.nodup_iff_pairwise_ne, List.pairwise_map] at hnd ⊢
  refine hnd.imp_of_mem ?_
  intro i j hi hj hne heq
  rcases Sym2.eq_iff.1 heq with ⟨h1, h2⟩ | ⟨h1, h2⟩
  · exact hne (Prod.ext h1 h2)
  · have k1 := hbef i hi
    have k2 := hbef j hj
    rw [h1, h2] at k1
    exact before_asymm k1 k2

/-- C54: of two different elements that are not both faces, exactly one is named first; so testing
only pairs in this order misses nothing. -/
theorem C54_either (h : Calls g (new d) ops p) {x y : Element} (hx : x ∈ (contents d ops).elements)
    (hy : y ∈ (contents d ops).elements) (hne : x ≠ y)
    (hf : ∀ f f', ¬(x = .face f ∧ y = .face f')) :
    Xor' ((contents d ops).before x y) ((contents d ops).before y x) := by
  suffices hs : (contents d ops).before x y ∨ (contents d ops).before y x by
    rcases hs with hs | hs
    · exact .inl ⟨hs, before_asymm hs⟩
    · exact .inr ⟨hs, before_asymm hs⟩
  cases x with
  | vertex v =>
    cases y with
    | vertex w =>
      have : v ≠ w := fun h => hne (by rw [h])
      simp only [Contents.before, decide_eq_true_eq]
      omega
    | edge e => exact .inl rfl
    | face f => exact .inl rfl
  | edge e =>
    cases y with
    | vertex w => exact .inr rfl
    | face f => exact .inl rfl
    | edge e' =>
      obtain ⟨a, a', value, he⟩ := edge_of_mem hx
      obtain ⟨k, k', value', he'⟩ := edge_of_mem hy
      simp only [Contents.before, Contents.corners, he, he', Option.map_some, Option.getD_some, decide_eq_true_eq]
      rcases lt_trichotomy [a, a'] [k, k'] with hlt | heq | hlt
      · exact .inl hlt
      · exfalso
        apply hne
        congr 1
        have hn := (C49_edges h).2.2
        have h1 : ((contents d ops).edges.map Prod.fst)[e]? = some (a, a') := by
          rw [List.getElem?_map, he]; rfl
        have h2 : ((contents d ops).edges.map Prod.fst)[e']? = some (a, a') := by
          rw [List.getElem?_map, he']
          simp only [List.cons.injEq, and_true] at heq
          rw [heq.1, heq.2]
          rfl
        obtain ⟨l1, e1⟩ := List.getElem?_eq_some_iff.1 h1
        obtain ⟨l2, e2⟩ := List.getElem?_eq_some_iff.1 h2
        exact (hn.getElem_inj_iff).1 (e1.trans e2.symm)
      · exact .inr hlt
  | face f =>
    cases y with
    | vertex w => exact .inr rfl
    | edge e => exact .inr rfl
    | face f' => exact absurd ⟨rfl, rfl⟩ (hf f f')

theorem putNew_of_mem {l : List ((Nat × Nat) × E)} (d : E) : ∀ (new : List (Nat × Nat)),
    (∀ vs ∈ new, vs ∈ l.map Prod.fst) → new.foldl (fun l vs => putNew l vs d) l = l
  | [], _ => rfl
  | vs :: new, h => by
    rw [List.foldl_cons]
    have : putNew l vs d = l := by
      unfold putNew
      rw [if_pos (h vs (by simp))]
    rw [this]
    exact putNew_of_mem d new fun ws hws => h ws (by simp [hws])

/-- Faces are only compared through their edges and vertices, and these may touch: if a `Plc` is
valid then adding a face with the same rings as an existing one gives a valid `Plc`, although the
two faces coincide. -/
theorem C54_twice (h : Calls g (new d) ops p) (hb : Broad b bvt) (hv : p.validate t b bvt = some (.ok ()))
    {f : Nat} {rings : List (List Nat)} {value value' : F}
    (hf : (contents d ops).faces[f]? = some (rings, value)) {p' : Plc P Q V E F} {f' : Nat}
    (hc : call g p (.face rings value') = some (p', f')) :
    f' ≠ f ∧ p'.validate t b bvt = some (.ok ()) := by
  have h' := h.snoc hc
  have hid := C49_ids h hc
  have hfl := (List.getElem?_eq_some_iff.1 hf).1
  refine ⟨?_, ?_⟩
  · rw [hid]
    exact Nat.ne_of_gt hfl
  have hcon : contents d (ops ++ [.face rings value']) =
      { contents d ops with faces := (contents d ops).faces ++ [(rings, value')] } := by
    unfold contents
    rw [List.foldl_append, List.foldl_cons, List.foldl_nil]
    change Contents.apply d (contents d ops) _ = _
    simp only [Contents.apply]
    congr 1
    apply putNew_of_mem
    intro vs hvs
    obtain ⟨r, hr, hvr⟩ := List.mem_flatMap.1 hvs
    have := keys_foldl_apply d vs ops (Contents.empty : Contents P V E F)
    refine this.2 (.inr ⟨.face rings value, ?_, r, hr, hvr⟩)
    have hm := List.mem_of_getElem? hf
    rw [(C50_contents d ops).2] at hm
    obtain ⟨op, hop, ho⟩ := List.mem_filterMap.1 hm
    cases op <;> simp at ho
    obtain ⟨rfl, rfl⟩ := ho
    exact hop
  rw [C53_ok h hb] at hv
  rw [C53_ok h' hb, hcon]
  generalize contents d ops = c at *
  obtain ⟨h1, h2, h3⟩ := hv
  have hfm := List.mem_of_getElem? hf
  have hpl : ∀ r, Contents.plane g { c with faces := c.faces ++ [(rings, value')] } r = c.plane g r := fun _ => rfl
  have hpos : ∀ v, Contents.pos { c with faces := c.faces ++ [(rings, value')] } v = c.pos v := fun _ => rfl
  refine ⟨?_, ?_, ?_⟩
  · intro x hx
    rcases List.mem_append.1 hx with hx | hx
    · exact h1 x hx
    · rw [List.mem_singleton.1 hx]
      have := h1 _ hfm
      exact this
  · intro x hx r hr v hv pos hp
    rcases List.mem_append.1 hx with hx | hx
    · exact h2 x hx r hr v hv pos hp
    · rw [List.mem_singleton.1 hx] at hr ⊢
      exact h2 _ hfm r hr v hv pos hp
  · -- the new face counts as the old one
    have hget : ∀ i, i < c.faces.length → (c.faces ++ [(rings, value')])[i]? = c.faces[i]? := fun i hi =>
      List.getElem?_append_left hi
    have hnew : (c.faces ++ [(rings, value')])[c.faces.length]? = some (rings, value') := by simp
    let old : Element → Element
      | .face i => if i = c.faces.length then .face f else .face i
      | x => x
    have hcor : ∀ x ∈ Contents.elements { c with faces := c.faces ++ [(rings, value')] },
        old x ∈ c.elements ∧
        Contents.corners { c with faces := c.faces ++ [(rings, value')] } x = c.corners (old x) := by
      intro x hx
      cases x with
      | vertex v => exact ⟨mem_elements.2 (mem_elements.1 hx :), rfl⟩
      | edge e => exact ⟨mem_elements.2 (mem_elements.1 hx :), rfl⟩
      | face i =>
        have hi := mem_elements.1 hx
        simp only [List.length_append, List.length_cons, List.length_nil] at hi
        by_cases hil : i = c.faces.length
        · subst hil
          simp only [old, if_true, Contents.corners, hnew, hf, Option.map_some, Option.getD_some, and_true]
          exact mem_elements.2 (show f < c.faces.length from hfl)
        · simp only [old, if_neg hil, Contents.corners, hget i (by omega), and_true]
          exact mem_elements.2 (show i < c.faces.length by omega)
    intro x hx y hy hbe hdis hmeet
    obtain ⟨ox, kx⟩ := hcor x hx
    obtain ⟨oy, ky⟩ := hcor y hy
    have key := h3 (old x) ox (old y) oy
    rw [kx, ky] at hdis
    have hbox : ∀ x ∈ Contents.elements { c with faces := c.faces ++ [(rings, value')] },
        Contents.box b { c with faces := c.faces ++ [(rings, value')] } x = c.box b (old x) := by
      intro x hx
      unfold Contents.box Contents.points
      rw [(hcor x hx).2]
      rfl
    rw [hbox x hx, hbox y hy] at hmeet
    have hfaces : ∀ i, Element.face i ∈ Contents.elements { c with faces := c.faces ++ [(rings, value')] } →
        ∀ j, old (.face i) = .face j →
        ((c.faces ++ [(rings, value')])[i]?).map Prod.fst = (c.faces[j]?).map Prod.fst := by
      intro i hx j hj
      have hi := mem_elements.1 hx
      simp only [List.length_append, List.length_cons, List.length_nil] at hi
      by_cases hil : i = c.faces.length
      · simp only [old, if_pos hil, Element.face.injEq] at hj
        rw [hil, hnew, ← hj, hf]
        rfl
      · simp only [old, if_neg hil, Element.face.injEq] at hj
        rw [hget i (by omega), hj]
    cases x with
    | vertex v =>
      cases y with
      | vertex w => exact key hbe hdis hmeet
      | edge e => exact key hbe hdis hmeet
      | face i =>
        obtain ⟨j, hj⟩ : ∃ j, old (.face i) = .face j := by simp only [old]; split <;> exact ⟨_, rfl⟩
        have hm := hfaces i hy j hj
        rw [hj] at key hdis hmeet
        have key : c.near g t (.vertex v) (.face j) = none := key rfl hdis hmeet
        simp only [Contents.near, hpl, hpos] at key ⊢
        cases ha : (c.faces ++ [(rings, value')])[i]? with
        | none => rfl
        | some z =>
          rw [ha] at hm
          obtain ⟨z', hz', hzz⟩ := Option.map_eq_some_iff.1 hm.symm
          rw [hz'] at key
          obtain ⟨z1, z2⟩ := z
          obtain ⟨z1', z2'⟩ := z'
          cases hzz
          exact key
    | edge e =>
      cases y with
      | vertex w => cases hbe
      | edge e' => exact key hbe hdis hmeet
      | face i =>
        obtain ⟨j, hj⟩ : ∃ j, old (.face i) = .face j := by simp only [old]; split <;> exact ⟨_, rfl⟩
        have hm := hfaces i hy j hj
        rw [hj] at key hdis hmeet
        have key : c.near g t (.edge e) (.face j) = none := key rfl hdis hmeet
        simp only [Contents.near, hpl, hpos] at key ⊢
        cases ha : (c.faces ++ [(rings, value')])[i]? with
        | none => rfl
        | some z =>
          rw [ha] at hm
          obtain ⟨z', hz', hzz⟩ := Option.map_eq_some_iff.1 hm.symm
          rw [hz'] at key
          obtain ⟨z1, z2⟩ := z
          obtain ⟨z1', z2'⟩ := z'
          cases hzz
          exact key
    | face i => cases y <;> cases hbe

/-! ## Examples: every kind of result occurs -/

namespace Example

example : verdict (points [1, 2, 3, 4] ++ [.face [[0, 1], [2]] 0, .face [[0, 1, 2], [3]] 0, .face [[3]] 0]) =
    some (some (.degenerateFace [0, 2])) := by decide +kernel

example : verdict (points [1, 2, 0, 4] ++ [.face [[0, 1, 2]] 0, .face [[0, 1, 3], [2]] 0, .face [[3, 2, 1]] 0]) =
    some (some (.twistedFace [(2, [(3, 4)])])) := by decide +kernel

example : verdict (points [1, 20, 30, 17] ++ [.face [[0, 1, 2]] 0, .face [[0, 1, 3]] 0]) =
    some (some (.intersects [(.vertex 2, .face 1, 3), (.vertex 3, .edge 0, 1)])) := by decide +kernel

example : verdict (points [1, 20, 31] ++ [.face [[0, 1, 2]] 0]) = some none ∧
    verdict (points [1, 20, 31] ++ [.face [[0, 1, 2]] 0, .face [[0, 1, 2]] 0]) = some none := by decide +kernel

end Example

end Tet.Plc
