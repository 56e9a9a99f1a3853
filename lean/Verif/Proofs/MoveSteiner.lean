import Verif.Spec.MoveSteiner
import Verif.Proofs.VFrame
import Verif.Proofs.StarTime

/-!
# Where moving Steiner points puts the vertices
-/

namespace Tet
open Spec
variable {P K V T C : Type}

/-! ### The transforms keep positions and values -/

namespace VFrame

theorem removeEdge {m m' : Mesh P V T} {e} (h : m.removeEdge e = some m') : VFrame m m' := by
  unfold Mesh.removeEdge at h
  obtain ⟨r, -, h⟩ := Option.bind_eq_some_iff.1 h
  cases h
  exact rfl' rfl

theorem removeTet {m m' : Mesh P V T} {k} (h : m.removeTet k = some m') : VFrame m m' := by
  unfold Mesh.removeTet at h
  obtain ⟨r, -, h⟩ := Option.bind_eq_some_iff.1 h
  cases h
  exact rfl' rfl

theorem triRemoveTet {m m' : Mesh P V T} {k} (h : m.triRemoveTet k = some m') : VFrame m m' := by
  unfold Mesh.triRemoveTet at h
  obtain ⟨r, -, h⟩ := Option.bind_eq_some_iff.1 h
  cases h
  exact rfl' rfl

theorem itFace {fuel k vs} {m m' : Mesh P V T} {i} (h : Mesh.itFace fuel k vs m i = some m') : VFrame m m' := by
  unfold Mesh.itFace at h
  obtain ⟨⟨a, b, c⟩, -, h⟩ := Option.bind_eq_some_iff.1 h
  obtain ⟨adj, -, h⟩ := Option.bind_eq_some_iff.1 h
  have last : ∀ {m1 : Mesh P V T}, ((m1.triInsert (a, b, c) ⟨k, Mesh.faceCode i⟩).vertices.get (vs i)).bind (fun _ =>
      some ((m1.triInsert (a, b, c) ⟨k, Mesh.faceCode i⟩).setVertexTet (vs i) (Walker.perm ⟨k, Mesh.faceCode i⟩ P3210))) = some m' → VFrame m1 m' := by
    intro m1 h
    obtain ⟨y, -, h⟩ := Option.bind_eq_some_iff.1 h
    cases h
    exact .trans (b := m1.triInsert (a, b, c) ⟨k, Mesh.faceCode i⟩) (rfl' rfl) (setVertexTet _ _ _)
  cases adj with
  | none => exact last h
  | some adj =>
    obtain ⟨m1, h1, h⟩ := Option.bind_eq_some_iff.1 h
    obtain ⟨m2, h2, h⟩ := Option.bind_eq_some_iff.1 h
    exact (modTet h1).trans ((modTet h2).trans (last h))

theorem itEdge {k} {s s' : Mesh P V T × Mesh.EdgeMap} {i} (h : Mesh.itEdge k s i = some s') : VFrame s.1 s'.1 := by
  unfold Mesh.itEdge at h
  obtain ⟨e, -, h⟩ := Option.bind_eq_some_iff.1 h
  split at h
  · obtain ⟨m1, h1, h⟩ := Option.bind_eq_some_iff.1 h
    cases h
    exact modTet h1
  · obtain ⟨⟨m1, id⟩, h1, h⟩ := Option.bind_eq_some_iff.1 h
    obtain ⟨m2, h2, h⟩ := Option.bind_eq_some_iff.1 h
    cases h
    exact (insertEdge h1).trans (modTet h2)

theorem insertTetAt {fuel} {s s' : Mesh P V T × Mesh.EdgeMap} {q w} (h : Mesh.insertTetAt fuel s q = some (s', w)) : VFrame s.1 s'.1 := by
  unfold Mesh.insertTetAt at h
  obtain ⟨⟨m1, k⟩, h1, h⟩ := Option.bind_eq_some_iff.1 h
  obtain ⟨m2, h2, h⟩ := Option.bind_eq_some_iff.1 h
  obtain ⟨s3, h3, h⟩ := Option.bind_eq_some_iff.1 h
  cases h
  exact (insertTet h1).trans ((foldlM (fun _ _ _ h => itFace h) _ h2).trans (step2 (s := (m2, s.2)) (fun _ _ _ h => itEdge h) _ h3))

theorem capDrop {fuel vt spine} {s s' : Mesh P V T × Mesh.EdgeMap} {e} (h : Mesh.capDrop fuel vt spine s e = some s') : VFrame s.1 s'.1 := by
  simp only [Mesh.capDrop, Option.bind_eq_bind] at h
  obtain ⟨w, -, h⟩ := Option.bind_eq_some_iff.1 h
  obtain ⟨w, -, h⟩ := Option.bind_eq_some_iff.1 h
  obtain ⟨adj, -, h⟩ := Option.bind_eq_some_iff.1 h
  obtain ⟨t, -, h⟩ := Option.bind_eq_some_iff.1 h
  obtain ⟨m1, h1, h⟩ := Option.bind_eq_some_iff.1 h
  obtain ⟨m2, h2, h⟩ := Option.bind_eq_some_iff.1 h
  obtain ⟨m3, h3, h⟩ := Option.bind_eq_some_iff.1 h
  obtain ⟨m4, h4, h⟩ := Option.bind_eq_some_iff.1 h
  obtain ⟨em, -, h⟩ := Option.bind_eq_some_iff.1 h
  refine (modEdge h1).trans ((modEdge h2).trans ((modTet h3).trans ((modTet h4).trans ?_)))
  clear h1 h2 h3 h4
  split_ifs at h
  · obtain ⟨m5, h5, h⟩ := Option.bind_eq_some_iff.1 h
    obtain ⟨m6, h6, h⟩ := Option.bind_eq_some_iff.1 h
    obtain ⟨m7, h7, h⟩ := Option.bind_eq_some_iff.1 h
    cases h
    exact (removeEdge h5).trans ((triRemoveTet h6).trans (removeTet h7))
  · obtain ⟨m5, h5, h⟩ := Option.bind_eq_some_iff.1 h
    cases h5
    obtain ⟨m6, h6, h⟩ := Option.bind_eq_some_iff.1 h
    obtain ⟨m7, h7, h⟩ := Option.bind_eq_some_iff.1 h
    cases h
    exact (triRemoveTet h6).trans (removeTet h7)

theorem capCone {fuel} {s s' : Mesh P V T × Mesh.EdgeMap} {q} (h : Mesh.capCone fuel s q = some s') : VFrame s.1 s'.1 := by
  unfold Mesh.capCone at h
  obtain ⟨⟨s1, w⟩, h1, h⟩ := Option.bind_eq_some_iff.1 h
  obtain ⟨m2, h2, h⟩ := Option.bind_eq_some_iff.1 h
  cases h
  exact (insertTetAt h1).trans (modTet h2)

theorem capLock {s s' : Mesh P V T × Mesh.EdgeMap} {e} (h : Mesh.capLock s e = some s') : VFrame s.1 s'.1 := by
  unfold Mesh.capLock at h
  obtain ⟨i, -, h⟩ := Option.bind_eq_some_iff.1 h
  obtain ⟨m2, h2, h⟩ := Option.bind_eq_some_iff.1 h
  cases h
  exact modEdge h2

theorem capPut {fuel vt vb} {s s' : Mesh P V T × Mesh.EdgeMap} {r} (h : Mesh.capPut fuel vt vb s r = some s') : VFrame s.1 s'.1 := by
  unfold Mesh.capPut at h
  obtain ⟨s1, h1, h⟩ := Option.bind_eq_some_iff.1 h
  obtain ⟨s2, h2, h⟩ := Option.bind_eq_some_iff.1 h
  exact (capCone h1).trans ((capCone h2).trans (step2 (fun _ _ _ h => capLock h) _ h))

theorem capTransform {fuel} {m m' : Mesh P V T} {side vt vb tris} (h : m.capTransform fuel side vt vb tris = some m') : VFrame m m' := by
  unfold Mesh.capTransform at h
  obtain ⟨s1, h1, h⟩ := Option.bind_eq_some_iff.1 h
  obtain ⟨a, -, h⟩ := Option.bind_eq_some_iff.1 h
  obtain ⟨b, -, h⟩ := Option.bind_eq_some_iff.1 h
  obtain ⟨⟨s2, w⟩, h2, h⟩ := Option.bind_eq_some_iff.1 h
  obtain ⟨s3, h3, h⟩ := Option.bind_eq_some_iff.1 h
  cases h
  exact (step2 (s := (m, _)) (fun _ _ _ h => capDrop h) _ h1).trans ((insertTetAt h2).trans (step2 (fun _ _ _ h => capPut h) _ h3))

theorem shellTransform {fuel} {m m' : Mesh P V T} {side vt vb tris} (h : m.shellTransform fuel side vt vb tris = some m') : VFrame m m' := by
  unfold Mesh.shellTransform at h
  obtain ⟨s1, h1, h⟩ := Option.bind_eq_some_iff.1 h
  obtain ⟨s3, h3, h⟩ := Option.bind_eq_some_iff.1 h
  cases h
  exact (step2 (s := (m, _)) (fun _ _ _ h => capDrop h) _ h1).trans (step2 (fun _ _ _ h => capPut h) _ h3)

end VFrame

/-! ### One point -/

variable [Field K] [LinearOrder K]

/-- Position and value of a vertex -/
def info (m : Mesh (Pt K) V T) (v : VId) : Option (Pt K × V) := (m.vertices.get v).map fun x => (x.position, x.value)

theorem vert_iff {m : Mesh (Pt K) V T} {v : VId} {p : Pt K} {x : V} : Vert m v p x ↔ info m v = some (p, x) := by
  simp only [Vert, info, Option.map_eq_some_iff, Prod.mk.injEq]

theorem info_none {m : Mesh (Pt K) V T} {v : VId} : info m v = none ↔ m.vertices.get v = none := by
  simp [info]

theorem VFrame.info {m m' : Mesh (Pt K) V T} (h : VFrame m m') (v : VId) : Tet.info m' v = Tet.info m v := h.get v

theorem place_info {m m' : Mesh (Pt K) V T} {v : VId} {p : Pt K} (h : m.place v p = some m') :
    (m.vertices.WF → m'.vertices.WF) ∧ ∃ q x, info m v = some (q, x) ∧ info m' = Function.update (info m) v (some (p, x)) := by
  unfold Mesh.place at h
  obtain ⟨y, hy, h⟩ := Option.bind_eq_some_iff.1 h
  cases h
  refine ⟨fun w => w.modify _ _, y.position, y.value, by simp [info, hy], funext fun u => ?_⟩
  show ((m.vertices.modify v _).get u).map _ = _
  rw [IdMap.get_modify, Function.update_apply]
  split_ifs with e
  · subst e
    simp [hy]
  · rfl

theorem minByKey_pos {l : List K} {t : K} (hl : ∀ t ∈ l, 0 < t) (h : minByKey (fun a b : K => decide (a ≤ b)) (l.map fun t => (t, t)) = some t) :
    0 < t := by
  rcases minByKey_spec (le := fun a b : K => decide (a ≤ b)) (fun a b => by simpa using le_total a b)
    (fun a b c => by simpa using le_trans) (l.map fun t => (t, t)) with ⟨-, h1⟩ | ⟨x, hx, h1, -⟩
  · rw [h1] at h
    cases h
  · rw [h1] at h
    cases h
    obtain ⟨u, hu, rfl⟩ := List.mem_map.1 hx
    exact hl u hu

theorem time_pos {m : Mesh (Pt K) V T} {fuel : Nat} {a b c : VId} {t : K} (h : m.timeUntilNotStarShaped fuel a b c = some (some t)) : 0 < t := by
  unfold Mesh.timeUntilNotStarShaped at h
  obtain ⟨ws, -, h⟩ := Option.bind_eq_some_iff.1 h
  obtain ⟨bs, -, h⟩ := Option.bind_eq_some_iff.1 h
  refine minByKey_pos (fun t ht => ?_) (Option.some.inj h)
  obtain ⟨bary, -, hb⟩ := List.mem_filterMap.1 ht
  unfold Mesh.baryTime at hb
  by_cases hw : Mesh.weakSign bary
  · rw [if_pos hw] at hb
    obtain ⟨b3, -, hb⟩ := Option.bind_eq_some_iff.1 hb
    obtain ⟨b4, -, hb⟩ := Option.bind_eq_some_iff.1 hb
    by_cases hp : 0 < b4 / (b3 + b4)
    · simp only [if_pos hp] at hb
      cases hb
      exact hp
    · simp only [if_neg hp] at hb
      cases hb
  · rw [if_neg hw] at hb
    cases hb

theorem twin_info {m m' : Mesh (Pt K) V T} {fuel : Nat} {point sym : VId} {up down : Pt K} {a b : Option K} (hw : m.vertices.WF)
    (h : m.twin fuel point up down = some (m', sym, a, b)) : m'.vertices.WF ∧ ∃ q r x, info m point = some (q, x) ∧ info m sym = none ∧
      info m' = Function.update (info m) sym (some (r, x)) ∧ (∀ t ∈ a, 0 < t) ∧ ∀ t ∈ b, 0 < t := by
  unfold Mesh.twin at h
  obtain ⟨y, hy, h⟩ := Option.bind_eq_some_iff.1 h
  obtain ⟨⟨vs, s⟩, h1, h⟩ := Option.bind_eq_some_iff.1 h
  obtain ⟨m2, h2, h⟩ := Option.bind_eq_some_iff.1 h
  obtain ⟨ta, h3, h⟩ := Option.bind_eq_some_iff.1 h
  obtain ⟨m4, h4, h⟩ := Option.bind_eq_some_iff.1 h
  obtain ⟨tb, h5, h⟩ := Option.bind_eq_some_iff.1 h
  cases h
  obtain ⟨w1, i1, -, g1, -⟩ := IdMap.insert_some hw h1
  obtain ⟨w2, q2, x2, i2, g2⟩ := place_info h2
  obtain ⟨w4, q4, x4, i4, g4⟩ := place_info h4
  have e1 : info ({ m with vertices := vs } : Mesh (Pt K) V T) = Function.update (info m) sym (some (y.position, y.value)) := by
    funext u
    show (vs.get u).map _ = _
    rw [g1, Function.update_apply]
    split_ifs <;> rfl
  rw [e1] at i2 g2
  rw [g2] at i4 g4
  simp only [Function.update_self, Option.some.injEq, Prod.mk.injEq] at i2 i4
  obtain ⟨-, rfl⟩ := i2
  obtain ⟨-, rfl⟩ := i4
  refine ⟨w4 (w2 w1), y.position, y.position.add down, y.value, by simp [info, hy], by simp [info, i1], by rw [g4, Function.update_idem, Function.update_idem],
    fun t ht => ?_, fun t ht => ?_⟩
  · rw [Option.mem_def] at ht
    exact time_pos (ht ▸ h3)
  · rw [Option.mem_def] at ht
    exact time_pos (ht ▸ h5)

theorem part_info {m m' : Mesh (Pt K) V T} {point sym : VId} {original up down : Pt K} {a b : Option K} {len : K} (hw : m.vertices.WF)
    (hne : sym ≠ point) (h : m.part point sym original up down a b len = some m') : m'.vertices.WF ∧ ∀ q q' x, info m point = some (q, x) →
      info m sym = some (q', x) → info m' = Function.update (Function.update (info m) point
        (some (original.add (Pt.smul (a.elim (len / 2) (· / 2)) up), x))) sym (some (original.add (Pt.smul (b.elim (len / 2) (· / 2)) down), x)) := by
  unfold Mesh.part at h
  obtain ⟨m1, h1, h2⟩ := Option.bind_eq_some_iff.1 h
  obtain ⟨w1, q1, x1, i1, g1⟩ := place_info h1
  obtain ⟨w2, q2, x2, i2, g2⟩ := place_info h2
  refine ⟨w2 (w1 hw), fun q q' x hp hs => ?_⟩
  rw [hp] at i1
  rw [g1, Function.update_of_ne hne, hs] at i2
  cases i1
  cases i2
  rw [g2, g1]

variable [IsStrictOrderedRing K]

/-- The time that is used -/
theorem elim_pos {a : Option K} {len : K} (ha : ∀ t ∈ a, 0 < t) (hl : 0 < len) : 0 < a.elim (len / 2) (· / 2) := by
  cases a with
  | none => exact half_pos hl
  | some t => exact half_pos (ha t rfl)

theorem elim_nonneg {a : Option K} {len : K} (ha : ∀ t ∈ a, 0 < t) (hl : 0 ≤ len) : 0 ≤ a.elim (len / 2) (· / 2) := by
  cases a with
  | none => exact div_nonneg hl two_pos.le
  | some t => exact (half_pos (ha t rfl)).le

omit [Field K] [LinearOrder K] [IsStrictOrderedRing K] in
theorem fresh_ne {f : VId → Option (Pt K × V)} {p s : VId} {y : Pt K × V} (h : f p = some y) (h' : f s = none) : s ≠ p := by
  rintro rfl
  rw [h] at h'
  cases h'

/-- One point with its copy -/
def OnePart (m m' : Mesh (Pt K) V T) (p s : VId) (G : Pt K → Pt K → Prop) : Prop :=
  m'.vertices.WF ∧ ∃ q x d d', G d d' ∧ info m p = some (q, x) ∧ info m s = none ∧
    info m' = Function.update (Function.update (info m) p (some (q.add d, x))) s (some (q.add d', x))

theorem sink_frame {env : MoveEnv K C} {fuel : Nat} {s s' : MoveState K V T C} {point sym : VId} {es : List Nat}
    (h : s.sink env fuel point sym es = some s') : VFrame s.mesh s'.mesh := by
  unfold MoveState.sink at h
  obtain ⟨ws, -, h⟩ := Option.bind_eq_some_iff.1 h
  obtain ⟨ex, -, h⟩ := Option.bind_eq_some_iff.1 h
  obtain ⟨⟨m1, B, E⟩, h1, h⟩ := Option.bind_eq_some_iff.1 h
  obtain ⟨⟨m2, B'⟩, h2, h⟩ := Option.bind_eq_some_iff.1 h
  cases h
  exact (VFrame.pointCavity h1).trans (VFrame.flipIn h2)

theorem forget_mesh {env : MoveEnv K C} {xy : Pt K → K × K} {s s' : MoveState K V T C} {point : VId}
    (h : s.forget env xy point = some s') : s'.mesh = s.mesh := by
  simp only [MoveState.forget, Option.bind_eq_bind] at h
  obtain ⟨i, -, h⟩ := Option.bind_eq_some_iff.1 h
  obtain ⟨l, -, h⟩ := Option.bind_eq_some_iff.1 h
  cases h
  rfl

theorem onEdge_part {env : MoveEnv K C} {xy : Pt K → K × K} {fuel : Nat} {normal edgeVec : Pt K} {edge : VId × VId} {s s' : MoveState K V T C}
    {point next sym : VId} (hw : s.mesh.vertices.WF) (hl : 0 < env.norm edgeVec)
    (h : s.onEdge env xy fuel normal edgeVec edge point next = some (s', sym)) :
    OnePart s.mesh s'.mesh point sym fun d d' => ∃ t u : K, 0 < t ∧ 0 < u ∧
      d = Pt.smul t (normal.add (Pt.normalize env.norm (edgeVec.cross normal))) ∧
      d' = Pt.smul u ((Pt.smul (-1) normal).add (Pt.normalize env.norm (edgeVec.cross normal))) := by
  unfold MoveState.onEdge at h
  obtain ⟨original, h1, h⟩ := Option.bind_eq_some_iff.1 h
  obtain ⟨⟨m2, sym', a, b⟩, h2, h⟩ := Option.bind_eq_some_iff.1 h
  obtain ⟨m3, h3, h⟩ := Option.bind_eq_some_iff.1 h
  obtain ⟨i, -, h⟩ := Option.bind_eq_some_iff.1 h
  obtain ⟨j, -, h⟩ := Option.bind_eq_some_iff.1 h
  obtain ⟨e, -, h⟩ := Option.bind_eq_some_iff.1 h
  obtain ⟨stop, -, h⟩ := Option.bind_eq_some_iff.1 h
  obtain ⟨s4, h4, h⟩ := Option.bind_eq_some_iff.1 h
  obtain ⟨side, -, h⟩ := Option.bind_eq_some_iff.1 h
  obtain ⟨s5, h5, h⟩ := Option.bind_eq_some_iff.1 h
  obtain ⟨k, -, h⟩ := Option.bind_eq_some_iff.1 h
  obtain ⟨l, -, h⟩ := Option.bind_eq_some_iff.1 h
  dsimp only at h
  split_ifs at h
  obtain ⟨tris, -, h⟩ := Option.bind_eq_some_iff.1 h
  obtain ⟨m6, h6, h⟩ := Option.bind_eq_some_iff.1 h
  cases h
  obtain ⟨w2, q, r, x, i1, i2, g2, ha, hb⟩ := twin_info hw h2
  have hne := fresh_ne i1 i2
  obtain ⟨w3, g3⟩ := part_info w2 hne h3
  have g3 := g3 q r x (by rw [g2, Function.update_of_ne hne.symm, i1]) (by rw [g2, Function.update_self])
  have hf := (sink_frame h4).trans ((VFrame.rfl' (congrArg _ (forget_mesh h5)) (congrArg _ (forget_mesh h5))).trans (VFrame.capTransform h6))
  have ho : q = original := by
    have := h1
    rw [Mesh.idx] at this
    simp only [info, Option.map_eq_some_iff, Prod.mk.injEq] at i1
    obtain ⟨y, hy, rfl, -⟩ := i1
    rw [hy] at this
    exact Option.some.inj this
  subst ho
  refine ⟨hf.wf w3, q, x, _, _, ⟨_, _, elim_pos ha hl, elim_pos hb hl, rfl, rfl⟩, i1, i2, ?_⟩
  rw [show info m6 = info m3 from funext hf.info, g3, g2, Function.update_comm hne, Function.update_idem]

theorem inTri_part {env : MoveEnv K C} {xy : Pt K → K × K} {fuel : Nat} {normal : Pt K} {s s' : MoveState K V T C}
    {point sym : VId} (hw : s.mesh.vertices.WF) (hl : ∀ p, 0 ≤ env.norm p)
    (h : s.inTri env xy fuel normal point = some (s', sym)) :
    OnePart s.mesh s'.mesh point sym fun d d' => ∃ t u : K, 0 ≤ t ∧ 0 ≤ u ∧ d = Pt.smul t normal ∧ d' = Pt.smul u (Pt.smul (-1) normal) := by
  simp only [MoveState.inTri, Option.bind_eq_bind] at h
  obtain ⟨original, h1, h⟩ := Option.bind_eq_some_iff.1 h
  obtain ⟨⟨m2, sym', a, b⟩, h2, h⟩ := Option.bind_eq_some_iff.1 h
  obtain ⟨i, -, h⟩ := Option.bind_eq_some_iff.1 h
  obtain ⟨e, -, h⟩ := Option.bind_eq_some_iff.1 h
  obtain ⟨v, -, h⟩ := Option.bind_eq_some_iff.1 h
  obtain ⟨pv, -, h⟩ := Option.bind_eq_some_iff.1 h
  obtain ⟨pp, -, h⟩ := Option.bind_eq_some_iff.1 h
  obtain ⟨m3, h3, h⟩ := Option.bind_eq_some_iff.1 h
  obtain ⟨s4, h4, h⟩ := Option.bind_eq_some_iff.1 h
  obtain ⟨side, -, h⟩ := Option.bind_eq_some_iff.1 h
  obtain ⟨s5, h5, h⟩ := Option.bind_eq_some_iff.1 h
  obtain ⟨k, -, h⟩ := Option.bind_eq_some_iff.1 h
  obtain ⟨l, -, h⟩ := Option.bind_eq_some_iff.1 h
  obtain ⟨tris, -, h⟩ := Option.bind_eq_some_iff.1 h
  obtain ⟨m6, h6, h⟩ := Option.bind_eq_some_iff.1 h
  cases h
  obtain ⟨w2, q, r, x, i1, i2, g2, ha, hb⟩ := twin_info hw h2
  have hne := fresh_ne i1 i2
  obtain ⟨w3, g3⟩ := part_info w2 hne h3
  have g3 := g3 q r x (by rw [g2, Function.update_of_ne hne.symm, i1]) (by rw [g2, Function.update_self])
  have hf := (sink_frame h4).trans ((VFrame.rfl' (congrArg _ (forget_mesh h5)) (congrArg _ (forget_mesh h5))).trans (VFrame.shellTransform h6))
  have ho : q = original := by
    have := h1
    rw [Mesh.idx] at this
    simp only [info, Option.map_eq_some_iff, Prod.mk.injEq] at i1
    obtain ⟨y, hy, rfl, -⟩ := i1
    rw [hy] at this
    exact Option.some.inj this
  subst ho
  refine ⟨hf.wf w3, q, x, _, _, ⟨_, _, elim_nonneg ha (hl (pv.sub pp)), elim_nonneg hb (hl (pv.sub pp)), rfl, rfl⟩, i1, i2, ?_⟩
  rw [show info m6 = info m3 from funext hf.info, g3, g2, Function.update_comm hne, Function.update_idem]

/-! ### All points -/

theorem rel2_left {α β : Type} {R : α → β → Prop} {l : List α} {r : List β} (h : List.Forall₂ R l r) : ∀ a ∈ l, ∃ b ∈ r, R a b := by
  induction h with
  | nil => simp
  | cons h _ ih =>
    intro a ha
    rcases List.mem_cons.1 ha with rfl | ha
    · exact ⟨_, by simp, h⟩
    · obtain ⟨b, hb, h⟩ := ih a ha
      exact ⟨b, by simp [hb], h⟩

theorem rel2_right {α β : Type} {R : α → β → Prop} {l : List α} {r : List β} (h : List.Forall₂ R l r) : ∀ b ∈ r, ∃ a ∈ l, R a b :=
  rel2_left h.flip

theorem rel2_mem {α β : Type} {R S : α → β → Prop} {l : List α} {r : List β} (h : List.Forall₂ R l r)
    (hs : ∀ a b, a ∈ l → b ∈ r → R a b → S a b) : List.Forall₂ S l r := by
  induction h with
  | nil => exact .nil
  | cons h _ ih => exact .cons (hs _ _ (by simp) (by simp) h) (ih fun a b ha hb => hs a b (by simp [ha]) (by simp [hb]))

omit [IsStrictOrderedRing K] in
theorem OnePart.moved {m m' : Mesh (Pt K) V T} {p s : VId} {G : VId → Pt K → Pt K → Prop} (h : OnePart m m' p s (G p)) :
    MovedApart m m' [p] [s] G := by
  obtain ⟨-, q, x, d, d', hg, hp, hs, h⟩ := h
  have hne := fresh_ne hp hs
  refine ⟨.cons ⟨q, x, d, d', hg, vert_iff.2 hp, ?_, ?_⟩ .nil, ?_, by simp, fun v hv hv' q x => ?_⟩
  · rw [vert_iff, h, Function.update_of_ne hne.symm, Function.update_self]
  · rw [vert_iff, h, Function.update_self]
  · intro v hv
    obtain rfl := List.mem_singleton.1 hv
    exact info_none.1 hs
  · rw [vert_iff, vert_iff, h, Function.update_of_ne (by simpa using hv'), Function.update_of_ne (by simpa using hv)]

omit [IsStrictOrderedRing K] in
theorem Spec.MovedApart.append {m m1 m2 : Mesh (Pt K) V T} {p1 p2 s1 s2 : List VId} {G : VId → Pt K → Pt K → Prop} (h1 : MovedApart m m1 p1 s1 G)
    (h2 : MovedApart m1 m2 p2 s2 G) (hd : ∀ p ∈ p1, p ∉ p2) (hx : ∀ p ∈ p2, ∃ q x, Vert m p q x) :
    MovedApart m m2 (p1 ++ p2) (s1 ++ s2) G := by
  have new : ∀ {v q x}, Vert m1 v q x → v ∉ s2 := by
    rintro v q x ⟨y, hy, -⟩ hv
    rw [h2.fresh v hv] at hy
    cases hy
  have old : ∀ s ∈ s1, s ∉ p2 := by
    intro s hs hp
    obtain ⟨q, x, y, hy, -⟩ := hx s hp
    rw [h1.fresh s hs] at hy
    cases hy
  have keep : ∀ {v q x}, v ∉ p2 → Vert m1 v q x → Vert m2 v q x := fun hv h => (h2.others _ hv (new h) _ _).2 h
  have fresh2 : ∀ s ∈ s2, m.vertices.get s = none ∧ s ∉ s1 := by
    intro s hs
    have h3 : s ∉ s1 := by
      intro hs'
      obtain ⟨p, -, q, x, d, d', -, -, -, h⟩ := rel2_right h1.pairs s hs'
      exact new h hs
    refine ⟨?_, h3⟩
    by_contra hc
    obtain ⟨y, hy⟩ := Option.ne_none_iff_exists'.1 hc
    have h4 : Vert m s y.position y.value := ⟨y, hy, rfl, rfl⟩
    by_cases hp : s ∈ p1
    · obtain ⟨p, -, q, x, d, d', -, -, h, -⟩ := rel2_left h1.pairs s hp
      exact new h hs
    · exact new ((h1.others s hp h3 _ _).2 h4) hs
  refine ⟨List.rel_append ?_ ?_, ?_, ?_, ?_⟩
  · refine rel2_mem h1.pairs ?_
    rintro p s hp hs ⟨q, x, d, d', hg, k1, k2, k3⟩
    exact ⟨q, x, d, d', hg, k1, keep (hd p hp) k2, keep (old s hs) k3⟩
  · refine rel2_mem h2.pairs ?_
    rintro p s hp hs ⟨q, x, d, d', hg, k1, k2, k3⟩
    refine ⟨q, x, d, d', hg, (h1.others p (fun h => hd p h hp) (fun h => old p h hp) _ _).1 k1, k2, k3⟩
  · intro s hs
    rcases List.mem_append.1 hs with hs | hs
    · exact h1.fresh s hs
    · exact (fresh2 s hs).1
  · exact List.nodup_append.2 ⟨h1.nodup, h2.nodup, fun a ha b hb e => (fresh2 b hb).2 (e ▸ ha)⟩
  · intro v hv hv' q x
    rw [List.mem_append, not_or] at hv hv'
    rw [h2.others v hv.2 hv'.2, h1.others v hv.1 hv'.1]

omit [IsStrictOrderedRing K] in
theorem Spec.MovedApart.nil (m : Mesh (Pt K) V T) (G : VId → Pt K → Pt K → Prop) : MovedApart m m [] [] G :=
  ⟨.nil, by simp, by simp, fun _ _ _ _ _ => Iff.rfl⟩

omit [IsStrictOrderedRing K] in
/-- A vertex that exists still does. -/
theorem Spec.MovedApart.exists {m m' : Mesh (Pt K) V T} {ps ss : List VId} {G : VId → Pt K → Pt K → Prop} (h : MovedApart m m' ps ss G) {v : VId}
    (hv : ∃ q x, Vert m v q x) : ∃ q x, Vert m' v q x := by
  obtain ⟨q, x, hv⟩ := hv
  by_cases hp : v ∈ ps
  · obtain ⟨s, -, q, x, d, d', -, -, k, -⟩ := rel2_left h.pairs v hp
    exact ⟨_, _, k⟩
  · refine ⟨q, x, (h.others v hp (fun hs => ?_) _ _).2 hv⟩
    obtain ⟨y, hy, -⟩ := hv
    rw [h.fresh v hs] at hy
    cases hy

omit [IsStrictOrderedRing K] in
theorem pushAll_moved {α : Type} {f : MoveState K V T C → α → Option (MoveState K V T C × VId)} {point : α → VId} {G : VId → Pt K → Pt K → Prop}
    (l : List α) (hf : ∀ s, ∀ a ∈ l, ∀ s' sym, s.mesh.vertices.WF → f s a = some (s', sym) → OnePart s.mesh s'.mesh (point a) sym (G (point a)))
    (s : MoveState K V T C) {s' : MoveState K V T C} {new : List VId} (hw : s.mesh.vertices.WF) (hn : (l.map point).Nodup)
    (hx : ∀ p ∈ l.map point, ∃ q x, Vert s.mesh p q x) (h : pushAll f point l s = some (s', new)) :
    s'.mesh.vertices.WF ∧ ∃ ss, new = weave (l.map point) ss ∧ MovedApart s.mesh s'.mesh (l.map point) ss G := by
  induction l generalizing s new with
  | nil =>
    cases h
    exact ⟨hw, [], rfl, .nil _ _⟩
  | cons a l ih =>
    unfold pushAll at h
    obtain ⟨⟨s1, sym⟩, h1, h⟩ := Option.bind_eq_some_iff.1 h
    obtain ⟨⟨s2, new2⟩, h2, h⟩ := Option.bind_eq_some_iff.1 h
    cases h
    have h3 := hf s a (by simp) s1 sym hw h1
    rw [List.map_cons, List.nodup_cons] at hn
    obtain ⟨w4, ss, rfl, h4⟩ := ih (fun s b hb => hf s b (by simp [hb])) s1 h3.1 hn.2
      (fun p hp => h3.moved.exists (hx p (by simp only [List.map_cons, List.mem_cons]; exact .inr hp))) h2
    refine ⟨w4, sym :: ss, rfl, ?_⟩
    exact Spec.MovedApart.append (p1 := [point a]) (s1 := [sym]) h3.moved h4 (fun p hp hp' => hn.1 (List.mem_singleton.1 hp ▸ hp'))
      fun p hp => hx p (by simp only [List.map_cons, List.mem_cons]; exact .inr hp)

/-! ### Directions -/

theorem cross_ne {e n : Pt K} (he : e ≠ ⟨0, 0, 0⟩) (hn : n ≠ ⟨0, 0, 0⟩) (hp : e.dot n = 0) : e.cross n ≠ ⟨0, 0, 0⟩ := by
  intro h
  have h1 : (e.cross n).norm2 = e.norm2 * n.norm2 - e.dot n ^ 2 := by simp only [Pt.norm2, Pt.dot, Pt.cross]; ring
  rw [h, hp] at h1
  have h2 := mul_pos (norm2_pos he) (norm2_pos hn)
  simp only [Pt.norm2, Pt.dot] at h1 h2
  linarith

omit [LinearOrder K] [IsStrictOrderedRing K] in
theorem up_eq (e n : Pt K) (t b c : K) : Pt.smul t ((Pt.smul b n).add (Pt.smul c (e.cross (Pt.smul b n)))) =
    (Pt.smul (t * b) n).add (Pt.smul (t * (c * b)) (e.cross n)) := by
  simp only [Pt.smul, Pt.add, Pt.cross, Pt.mk.injEq]
  exact ⟨by ring, by ring, by ring⟩

omit [LinearOrder K] [IsStrictOrderedRing K] in
theorem down_eq (e n : Pt K) (t b c : K) : Pt.smul t ((Pt.smul (-1) (Pt.smul b n)).add (Pt.smul c (e.cross (Pt.smul b n)))) =
    (Pt.smul (-(t * b)) n).add (Pt.smul (t * (c * b)) (e.cross n)) := by
  simp only [Pt.smul, Pt.add, Pt.cross, Pt.mk.injEq]
  exact ⟨by ring, by ring, by ring⟩

theorem weave_append {a b c d : List VId} (h : a.length = b.length) : weave (a ++ c) (b ++ d) = weave a b ++ weave c d := by
  induction a generalizing b with
  | nil =>
    cases b with
    | nil => rfl
    | cons => cases h
  | cons x a ih =>
    cases b with
    | nil => cases h
    | cons y b => simp only [List.cons_append, weave, ih (Nat.succ.inj h)]

theorem astride_of {norm : Pt K → K} (hpos : ∀ p, p ≠ ⟨0, 0, 0⟩ → 0 < norm p) {e n d d' : Pt K} (he : e ≠ ⟨0, 0, 0⟩) (hn : n ≠ ⟨0, 0, 0⟩)
    (hp : e.dot n = 0) (h : ∃ t u : K, 0 < t ∧ 0 < u ∧
      d = Pt.smul t ((Pt.normalize norm n).add (Pt.normalize norm (e.cross (Pt.normalize norm n)))) ∧
      d' = Pt.smul u ((Pt.smul (-1) (Pt.normalize norm n)).add (Pt.normalize norm (e.cross (Pt.normalize norm n))))) :
    Astride n (e.cross n) d d' := by
  obtain ⟨t, u, ht, hu, rfl, rfl⟩ := h
  have hc : 0 < (norm n)⁻¹ := inv_pos.2 (hpos n hn)
  have hne : e.cross (Pt.normalize norm n) ≠ ⟨0, 0, 0⟩ := by
    intro h0
    refine cross_ne he hn hp ?_
    simp only [Pt.normalize, Pt.smul, Pt.cross, Pt.mk.injEq] at h0 ⊢
    obtain ⟨h1, h2, h3⟩ := h0
    refine ⟨?_, ?_, ?_⟩
    · exact (mul_eq_zero.1 (show (norm n)⁻¹ * _ = 0 by linear_combination h1)).resolve_left hc.ne'
    · exact (mul_eq_zero.1 (show (norm n)⁻¹ * _ = 0 by linear_combination h2)).resolve_left hc.ne'
    · exact (mul_eq_zero.1 (show (norm n)⁻¹ * _ = 0 by linear_combination h3)).resolve_left hc.ne'
  have hd : 0 < (norm (e.cross (Pt.normalize norm n)))⁻¹ := inv_pos.2 (hpos _ hne)
  refine ⟨t * (norm n)⁻¹, t * ((norm (e.cross (Pt.normalize norm n)))⁻¹ * (norm n)⁻¹), u * (norm n)⁻¹,
    u * ((norm (e.cross (Pt.normalize norm n)))⁻¹ * (norm n)⁻¹), by positivity, by positivity, by positivity, by positivity, ?_, ?_⟩
  · exact up_eq e n t _ _
  · exact down_eq e n u _ _

/-! ### The whole function -/

theorem line_moved {env : MoveEnv K C} {xy : Pt K → K × K} {fuel : Nat} {n : Pt K} {edge : VId × VId} {l : List VId}
    {G : VId → Pt K → Pt K → Prop} {s s' : MoveState K V T C} {new : List VId} (hw : s.mesh.vertices.WF) {a b : Pt K} {xa xb : V}
    (ha : Vert s.mesh edge.1 a xa) (hb : Vert s.mesh edge.2 b xb) (hpos : ∀ p, p ≠ ⟨0, 0, 0⟩ → 0 < env.norm p) (he : b.sub a ≠ ⟨0, 0, 0⟩)
    (hn : n ≠ ⟨0, 0, 0⟩) (hp : (b.sub a).dot n = 0) (hG : ∀ p ∈ l, ∀ d d', Astride n ((b.sub a).cross n) d d' → G p d d')
    (hnd : l.Nodup) (hx : ∀ p ∈ l, ∃ q x, Vert s.mesh p q x)
    (h : s.line env xy fuel (Pt.normalize env.norm n) edge l = some (s', new)) :
    s'.mesh.vertices.WF ∧ ∃ ss, new = weave l ss ∧ MovedApart s.mesh s'.mesh l ss G := by
  simp only [MoveState.line, Option.bind_eq_bind] at h
  obtain ⟨b', h1, h⟩ := Option.bind_eq_some_iff.1 h
  obtain ⟨a', h2, h⟩ := Option.bind_eq_some_iff.1 h
  have ia : a' = a := by
    obtain ⟨y, hy, rfl, -⟩ := ha
    simpa [Mesh.idx, hy] using h2.symm
  have ib : b' = b := by
    obtain ⟨y, hy, rfl, -⟩ := hb
    simpa [Mesh.idx, hy] using h1.symm
  subst ia ib
  have hl : (l.zip (l.drop 1 ++ [edge.2])).map Prod.fst = l := List.map_fst_zip (by simp; omega)
  have := pushAll_moved (G := G) _ (fun s c hc s' sym hw h => ?_) s hw (by rw [hl]; exact hnd) (by rw [hl]; exact hx) h
  · rwa [hl] at this
  · obtain ⟨w, q, x, d, d', hg, k⟩ := onEdge_part hw (hpos _ he) h
    exact ⟨w, q, x, d, d', hG _ (by rw [← hl]; exact List.mem_map_of_mem hc) _ _ (astride_of hpos he hn hp hg), k⟩

theorem move_moved {env : MoveEnv K C} {xy : Pt K → K × K} {fuel : Nat} {tri : V3} {l0 l1 l2 l3 : List VId} {s : MoveState K V T C}
    {m' : Mesh (Pt K) V T} {new : List VId} (hw : s.mesh.vertices.WF) {p0 p1 p2 : Pt K} {x0 x1 x2 : V} (h0 : Vert s.mesh tri.1 p0 x0)
    (h1 : Vert s.mesh tri.2.1 p1 x1) (h2 : Vert s.mesh tri.2.2 p2 x2) (hpos : ∀ p, p ≠ ⟨0, 0, 0⟩ → 0 < env.norm p)
    (hnn : ∀ p, 0 ≤ env.norm p) (hN : (p1.sub p0).cross (p2.sub p0) ≠ ⟨0, 0, 0⟩) (hnd : (l0 ++ l1 ++ l2 ++ l3).Nodup)
    (hx : ∀ p ∈ l0 ++ l1 ++ l2 ++ l3, ∃ q x, Vert s.mesh p q x) (hc : ∀ v ∈ [tri.1, tri.2.1, tri.2.2], v ∉ l0 ++ l1 ++ l2 ++ l3)
    (h : moveSteiner env xy fuel tri l0 l1 l2 l3 s = some (m', new)) :
    ∃ ss, new = weave (l0 ++ l1 ++ l2 ++ l3) ss ∧ MovedApart s.mesh m' (l0 ++ l1 ++ l2 ++ l3) ss (OffTriangle p0 p1 p2 l0 l1 l2 l3) := by
  simp only [moveSteiner, Option.bind_eq_bind] at h
  obtain ⟨n, hn, h⟩ := Option.bind_eq_some_iff.1 h
  obtain ⟨⟨s1, n1⟩, k1, h⟩ := Option.bind_eq_some_iff.1 h
  obtain ⟨⟨s2, n2⟩, k2, h⟩ := Option.bind_eq_some_iff.1 h
  obtain ⟨⟨s3, n3⟩, k3, h⟩ := Option.bind_eq_some_iff.1 h
  obtain ⟨⟨s4, n4⟩, k4, h⟩ := Option.bind_eq_some_iff.1 h
  cases h
  have en : n = (p1.sub p0).cross (p2.sub p0) := by
    obtain ⟨y0, hy0, rfl, -⟩ := h0
    obtain ⟨y1, hy1, rfl, -⟩ := h1
    obtain ⟨y2, hy2, rfl, -⟩ := h2
    simp only [Mesh.triNormal, Mesh.idx, hy0, hy1, hy2, Option.map_some, Option.bind_eq_bind, Option.bind_some] at hn
    cases hn
    simp only [Pt.cross, Pt.sub, Pt.mk.injEq]
    exact ⟨by ring, by ring, by ring⟩
  subst en
  simp only [List.nodup_append, List.mem_append] at hnd
  obtain ⟨⟨⟨d0, d1, d01⟩, d2, d012⟩, d3, d0123⟩ := hnd
  simp only [List.mem_append] at hx
  have hcs : ∀ (ss ps : List VId) (ma mb : Mesh (Pt K) V T) (G : VId → Pt K → Pt K → Prop), MovedApart ma mb ps ss G → ∀ v, v ∉ ps → ∀ q x,
      Vert ma v q x → Vert mb v q x := by
    intro ss ps ma mb G hm v hv q x hq
    refine (hm.others v hv (fun hs => ?_) q x).2 hq
    obtain ⟨y, hy, -⟩ := hq
    rw [hm.fresh v hs] at hy
    cases hy
  simp only [List.mem_append, not_or] at hc
  obtain ⟨c00, c01, c02, c03⟩ : (tri.1 ∉ l0 ∧ tri.1 ∉ l1 ∧ tri.1 ∉ l2 ∧ tri.1 ∉ l3) := by
    have := hc tri.1 (by simp)
    tauto
  obtain ⟨c10, c11, c12, c13⟩ : (tri.2.1 ∉ l0 ∧ tri.2.1 ∉ l1 ∧ tri.2.1 ∉ l2 ∧ tri.2.1 ∉ l3) := by
    have := hc tri.2.1 (by simp)
    tauto
  obtain ⟨c20, c21, c22, c23⟩ : (tri.2.2 ∉ l0 ∧ tri.2.2 ∉ l1 ∧ tri.2.2 ∉ l2 ∧ tri.2.2 ∉ l3) := by
    have := hc tri.2.2 (by simp)
    tauto
  have sub_ne : ∀ {a b : Pt K}, (a = b → (p1.sub p0).cross (p2.sub p0) = ⟨0, 0, 0⟩) → a.sub b ≠ ⟨0, 0, 0⟩ := by
    intro a b hab hs
    refine hN (hab ?_)
    simp only [Pt.sub, Pt.mk.injEq] at hs
    obtain ⟨ax, ay, az⟩ := a
    obtain ⟨bx, by', bz⟩ := b
    simp only [Pt.mk.injEq]
    exact ⟨sub_eq_zero.1 hs.1, sub_eq_zero.1 hs.2.1, sub_eq_zero.1 hs.2.2⟩
  obtain ⟨w1, t1, rfl, g1⟩ := line_moved (G := OffTriangle p0 p1 p2 l0 l1 l2 l3) hw h0 h1 hpos
    (sub_ne (by rintro rfl; simp only [Pt.cross, Pt.sub, Pt.mk.injEq]; exact ⟨by ring, by ring, by ring⟩)) hN
    (by simp only [Pt.dot, Pt.cross, Pt.sub]; ring)
    (fun p hp d d' ha => ⟨fun _ => ha, fun h => absurd rfl (d01 p hp p h), fun h => absurd rfl (d012 p (.inl hp) p h),
      fun h => absurd rfl (d0123 p (.inl (.inl hp)) p h)⟩) d0 (fun p hp => hx p (by tauto)) k1
  have hx1 := fun p hp => g1.exists (hx p hp)
  obtain ⟨w2, t2, rfl, g2⟩ := line_moved (G := OffTriangle p0 p1 p2 l0 l1 l2 l3) w1 (hcs _ _ _ _ _ g1 _ c10 _ _ h1) (hcs _ _ _ _ _ g1 _ c20 _ _ h2) hpos
    (sub_ne (by rintro rfl; simp only [Pt.cross, Pt.sub, Pt.mk.injEq]; exact ⟨by ring, by ring, by ring⟩)) hN
    (by simp only [Pt.dot, Pt.cross, Pt.sub]; ring)
    (fun p hp d d' ha => ⟨fun h => absurd rfl (d01 p h p hp), fun _ => ha, fun h => absurd rfl (d012 p (.inr hp) p h),
      fun h => absurd rfl (d0123 p (.inl (.inr hp)) p h)⟩) d1 (fun p hp => hx1 p (by tauto)) k2
  have hx2 := fun p hp => g2.exists (hx1 p hp)
  have g12 := g1.append g2 (fun p h h' => d01 p h p h' rfl) (fun p hp => hx p (by tauto))
  obtain ⟨w3, t3, rfl, g3⟩ := line_moved (G := OffTriangle p0 p1 p2 l0 l1 l2 l3) w2
    (hcs _ _ _ _ _ g12 _ (by simp [c20, c21]) _ _ h2) (hcs _ _ _ _ _ g12 _ (by simp [c00, c01]) _ _ h0) hpos
    (sub_ne (by rintro rfl; simp only [Pt.cross, Pt.sub, Pt.mk.injEq]; exact ⟨by ring, by ring, by ring⟩)) hN
    (by simp only [Pt.dot, Pt.cross, Pt.sub]; ring)
    (fun p hp d d' ha => ⟨fun h => absurd rfl (d012 p (.inl h) p hp), fun h => absurd rfl (d012 p (.inr h) p hp), fun _ => ha,
      fun h => absurd rfl (d0123 p (.inr hp) p h)⟩) d2 (fun p hp => hx2 p (by tauto)) k3
  have hx3 := fun p hp => g3.exists (hx2 p hp)
  have g123 := g12.append g3 (fun p h h' => d012 p (List.mem_append.1 h) p h' rfl) (fun p hp => hx p (by tauto))
  have inner : ∀ (s : MoveState K V T C), ∀ p ∈ l3, ∀ s' sym, s.mesh.vertices.WF →
      s.inTri env xy fuel (Pt.normalize env.norm ((p1.sub p0).cross (p2.sub p0))) p = some (s', sym) →
      OnePart s.mesh s'.mesh (id p) sym (OffTriangle p0 p1 p2 l0 l1 l2 l3 (id p)) := by
    intro s p hp s' sym hw h
    obtain ⟨w, q, x, d, d', ⟨t, u, ht, hu, e1, e2⟩, k⟩ := inTri_part hw hnn h
    refine ⟨w, q, x, d, d', ⟨fun h => absurd rfl (d0123 p (.inl (.inl h)) p hp), fun h => absurd rfl (d0123 p (.inl (.inr h)) p hp),
      fun h => absurd rfl (d0123 p (.inr h) p hp), fun _ => ⟨t * (env.norm ((p1.sub p0).cross (p2.sub p0)))⁻¹, u * (env.norm ((p1.sub p0).cross (p2.sub p0)))⁻¹, mul_nonneg ht (inv_nonneg.2 (hnn _)),
        mul_nonneg hu (inv_nonneg.2 (hnn _)), e1.trans ?_, e2.trans ?_⟩⟩, k⟩
    · simp only [Pt.normalize, Pt.smul, Pt.mk.injEq]
      exact ⟨by ring, by ring, by ring⟩
    · simp only [Pt.normalize, Pt.smul, Pt.mk.injEq]
      exact ⟨by ring, by ring, by ring⟩
  obtain ⟨w4, t4, rfl, g4⟩ := pushAll_moved (G := OffTriangle p0 p1 p2 l0 l1 l2 l3) l3 inner s3 w3 (by simpa using d3)
    (fun p hp => hx3 p (by simp at hp; tauto)) k4
  rw [List.map_id] at g4
  have g := g123.append g4 (fun p h h' => d0123 p (by simpa [or_assoc] using h) p h' rfl) (fun p hp => hx p (by tauto))
  refine ⟨_, ?_, g⟩
  rw [List.map_id, weave_append g123.pairs.length_eq, weave_append g12.pairs.length_eq, weave_append g1.pairs.length_eq]

end Tet
