import Verif.Spec.Recover
import Verif.Props.Progress
import Verif.Props.Traverse
import Verif.Proofs.Locks

/-!
# Recovering edges and triangles
-/

namespace Tet
open Spec Filter
variable {P V T : Type} {pos : Mesh P V T → V4 → Bool}

/-! ## Results for large enough bounds -/

theorem settles_const {α : Type} (r : α) : Settles (fun _ => r) r := ⟨0, fun _ _ => rfl⟩

theorem Spec.Settles.unique {α : Type} {f : Nat → α} {r r' : α} (h : Settles f r) (h' : Settles f r') : r = r' := by
  obtain ⟨N, h⟩ := h
  obtain ⟨N', h'⟩ := h'
  rw [← h (max N N') (le_max_left _ _), h' _ (le_max_right _ _)]

/-- The result settles and has a property. -/
def Does {α : Type} (f : Nat → α) (Q : α → Prop) : Prop := ∃ r, Settles f r ∧ Q r

theorem Does.mono {α : Type} {f : Nat → α} {Q R : α → Prop} (h : Does f Q) (hr : ∀ r, Q r → R r) : Does f R := by
  obtain ⟨r, h1, h2⟩ := h
  exact ⟨r, h1, hr r h2⟩

theorem does_const {α : Type} {r : α} {Q : α → Prop} (h : Q r) : Does (fun _ => r) Q := ⟨r, settles_const r, h⟩

theorem Does.congr {α : Type} {f g : Nat → α} {Q : α → Prop} (h : Does f Q) (he : ∀ n, g n = f n) : Does g Q := by
  obtain ⟨r, ⟨N, h1⟩, h2⟩ := h
  exact ⟨r, ⟨N, fun n hn => (he n).trans (h1 n hn)⟩, h2⟩

theorem Does.bind {α β : Type} {f : Nat → Option α} {g : Nat → α → Option β} {Q : Option α → Prop} {R : Option β → Prop}
    (h : Does f Q) (hg : ∀ a, Q (some a) → Settles f (some a) → Does (g · a) R)
    (hn : Q none → Settles f none → R none) : Does (fun n => (f n).bind (g n)) R := by
  obtain ⟨r, h1, h2⟩ := h
  obtain ⟨N, hN⟩ := h1
  cases r with
  | none => exact ⟨none, ⟨N, fun n h => by simp only [hN n h, Option.bind_none]⟩, hn h2 ⟨N, hN⟩⟩
  | some a =>
    obtain ⟨s, ⟨N', h3⟩, h4⟩ := hg a h2 ⟨N, hN⟩
    exact ⟨s, ⟨max N N', fun n h => by
      simp only [hN n (le_trans (le_max_left _ _) h), Option.bind_some, h3 n (le_trans (le_max_right _ _) h)]⟩, h4⟩

/-! ## What runs keep -/

theorem sameVertices_refl (m : Mesh P V T) : SameVertices m m := ⟨fun _ => rfl, rfl, rfl, rfl⟩

theorem Spec.SameThree.refl' (s : V3) : SameThree s s := List.Perm.refl _

theorem Spec.RecoverRun.trans' {m m1 m2 : Mesh P V T} (h : RecoverRun pos m m1) (h' : RecoverRun pos m1 m2) :
    RecoverRun pos m m2 := by
  induction h with
  | refl => exact h'
  | flip h1 h2 _ ih => exact .flip h1 h2 (ih h')
  | lock h1 _ ih => exact .lock h1 (ih h')

theorem recoverRun_of {tests : ProgressTests P V T} {m m1 : Mesh P V T} (h : ProgressRun tests m m1) :
    RecoverRun tests.pos m m1 := by
  induction h with
  | refl m => exact .refl m
  | step h1 _ ih =>
    obtain ⟨old, new, k1, k2, -⟩ := h1
    exact .flip k1 k2 ih

theorem locks_inMesh {m m1 : Mesh P V T} (hm : ConsistentT m) (hm1 : ConsistentT m1) (h : ∀ q, HasTet m1 q ↔ HasTet m q)
    (v : VId) : InMesh m1 v ↔ InMesh m v := by
  have key : ∀ {m m1 : Mesh P V T}, (∀ q, HasTet m q → HasTet m1 q) → InMesh m v → InMesh m1 v := by
    rintro m m1 h ⟨w, hw⟩
    obtain ⟨⟨a, b, c, d⟩, hq⟩ : ∃ q, m.tet4 w = some q := by
      simp only [Mesh.first, Mesh.tet4, Option.map_eq_some_iff] at hw ⊢
      obtain ⟨t, ht, -⟩ := hw
      exact ⟨_, t, ht, rfl⟩
    have := (tet4_parts hq).1
    rw [hw] at this
    cases this
    obtain ⟨w1, h1⟩ := h _ ⟨w, hq⟩
    exact ⟨w1, (tet4_parts h1).1⟩
  exact ⟨key fun q => (h q).1, key fun q => (h q).2⟩

theorem run_keeps {m m' : Mesh P V T} (h : RecoverRun pos m m') (hm : ConsistentT m) (hg : GoodOrient pos m)
    (ho : Oriented pos m) : ConsistentT m' ∧ SameVertices m m' ∧ Oriented pos m' ∧ ∀ v, InMesh m' v ↔ InMesh m v := by
  induction h with
  | refl m => exact ⟨hm, sameVertices_refl m, ho, fun _ => .rfl⟩
  | @flip m m1 m2 old new h1 h2 _ ih =>
    have hd := h1.done hm
    have ho1 := (progressFlip_fine (tests := ⟨pos, fun _ _ => true, fun _ _ => true⟩) (m' := m1) hm hg ho
      ⟨old, new, h1, h2, fun _ _ _ => .inr (.inl rfl), fun a b c _ => .inr ⟨a, b, c, List.Perm.refl _, rfl⟩⟩).2.2.2.2
    obtain ⟨k1, k2, k3, k4⟩ := ih hd.cons (hg.of_same hd.verts) ho1
    exact ⟨k1, SameVertices.trans' hd.verts k2, k3, fun v => (k4 v).trans (hd.inMesh v)⟩
  | @lock m m1 m2 h1 _ ih =>
    have ho1 : Oriented pos m1 := by
      intro a b c d h2
      have := ho a b c d ((h1.tets _).1 h2)
      rw [hg.verts m1 h1.vertices]
      exact ⟨this.1, fun h3 => this.2 ((h1.tets _).1 h3)⟩
    obtain ⟨k1, k2, k3, k4⟩ := ih h1.consistent.toT (hg.of_same h1.vertices) ho1
    exact ⟨k1, SameVertices.trans' h1.vertices k2, k3,
      fun v => (k4 v).trans (locks_inMesh hm h1.consistent.toT h1.tets v)⟩

theorem Spec.RecoverReady.run {m m' : Mesh P V T} (h : RecoverReady pos m) (hr : RecoverRun pos m m') : RecoverReady pos m' := by
  obtain ⟨h1, h2, h3, -⟩ := run_keeps hr h.consistent.toT h.orient h.oriented
  exact ⟨h1.toSpec, h2.2.2.1.trans h.tracked, h.orient.of_same h2, h3, fun m1 h4 => h.never m1 (hr.trans' h4)⟩

theorem Spec.RecoverReady.progress {m : Mesh P V T} {tests : ProgressTests P V T} (h : RecoverReady tests.pos m) :
    ProgressReady tests m :=
  ⟨h.consistent, h.tracked, h.orient, h.oriented, fun m1 hr hs => h.never m1 (recoverRun_of hr) hs⟩

/-! ## Locks -/

theorem Spec.NewLocks.refl' (m : Mesh P V T) (edges tris) : NewLocks m m edges tris :=
  ⟨fun _ => id, fun _ _ => id, fun _ => .inl, fun _ _ => .inl⟩

theorem Spec.NewLocks.trans' {m m1 m2 : Mesh P V T} {e1 e2 t1 t2} (h : NewLocks m m1 e1 t1) (h' : NewLocks m1 m2 e2 t2) :
    NewLocks m m2 (e1 ++ e2) (t1 ++ t2) := by
  refine ⟨fun s hs => h'.triKept s (h.triKept s hs), fun a b hs => h'.edgeKept a b (h.edgeKept a b hs), fun s hs => ?_,
    fun a b hs => ?_⟩
  · rcases h'.tri s hs with hs | ⟨t, ht, hs⟩
    · rcases h.tri s hs with hs | ⟨t, ht, hs⟩
      · exact .inl hs
      · exact .inr ⟨t, List.mem_append_left _ ht, hs⟩
    · exact .inr ⟨t, List.mem_append_right _ ht, hs⟩
  · rcases h'.edge a b hs with hs | hs
    · rcases h.edge a b hs with hs | hs
      · exact .inl hs
      · exact .inr (hs.imp (List.mem_append_left _) (List.mem_append_left _))
    · exact .inr (hs.imp (List.mem_append_right _) (List.mem_append_right _))

theorem Spec.NewLocks.mono {m m1 : Mesh P V T} {e1 e2 t1 t2} (h : NewLocks m m1 e1 t1) (he : ∀ e ∈ e1, e ∈ e2)
    (ht : ∀ t ∈ t1, t ∈ t2) : NewLocks m m1 e2 t2 :=
  ⟨h.triKept, h.edgeKept, fun s hs => (h.tri s hs).imp id fun ⟨t, h1, h2⟩ => ⟨t, ht t h1, h2⟩,
    fun a b hs => (h.edge a b hs).imp id (Or.imp (he _) (he _))⟩

theorem Spec.NewLocks.of_same {m m1 : Mesh P V T} (h : SameLocks m m1) (edges tris) : NewLocks m m1 edges tris :=
  ⟨fun s => (h.1 s).2, fun a b => (h.2 a b).2, fun s hs => .inl ((h.1 s).1 hs), fun a b hs => .inl ((h.2 a b).1 hs)⟩

theorem Spec.NewLocks.locks {m m1 : Mesh P V T} {e t} (h : NewLocks m m1 e t) (hc : Consistent m1) (hv : SameVertices m m1)
    (ht : ∀ q, HasTet m1 q ↔ HasTet m q) : Locks m m1 := ⟨hc, hv, ht, h.triKept, h.edgeKept⟩

theorem Spec.Recovered.refl' {m : Mesh P V T} (h : RecoverReady pos m) (edges tris) : Recovered pos m m edges tris :=
  ⟨.refl m, h, sameVertices_refl m, .refl' m _ _⟩

theorem Spec.Recovered.trans' {m m1 m2 : Mesh P V T} {e1 e2 t1 t2} (h : Recovered pos m m1 e1 t1)
    (h' : Recovered pos m1 m2 e2 t2) : Recovered pos m m2 (e1 ++ e2) (t1 ++ t2) :=
  ⟨h.run.trans' h'.run, h'.ready, SameVertices.trans' h.vertices h'.vertices, h.locks.trans' h'.locks⟩

theorem Spec.Recovered.mono {m m1 : Mesh P V T} {e1 e2 t1 t2} (h : Recovered pos m m1 e1 t1) (he : ∀ e ∈ e1, e ∈ e2)
    (ht : ∀ t ∈ t1, t ∈ t2) : Recovered pos m m1 e2 t2 := ⟨h.run, h.ready, h.vertices, h.locks.mono he ht⟩

theorem Spec.Recovered.of_progress {m m1 : Mesh P V T} {tests : ProgressTests P V T} (h : RecoverReady tests.pos m)
    (hr : ProgressRun tests m m1) (edges tris) : Recovered tests.pos m m1 edges tris := by
  obtain ⟨-, h2, h3, -⟩ := C46_run h.progress hr
  exact ⟨recoverRun_of hr, h.run (recoverRun_of hr), h2, .of_same h3 _ _⟩

theorem Spec.Recovered.of_locks {m m1 : Mesh P V T} {edges tris} (h : RecoverReady pos m) (hn : NewLocks m m1 edges tris)
    (hc : Consistent m1) (hv : SameVertices m m1) (ht : ∀ q, HasTet m1 q ↔ HasTet m q) : Recovered pos m m1 edges tris := by
  have hr : RecoverRun pos m m1 := .lock (hn.locks hc hv ht) (.refl m1)
  exact ⟨hr, h.run hr, hv, hn⟩

theorem same_face : ∀ e e' : Code, face e = face e' → e = e' ∨ e = nfe e' ∨ e = pfe e' := by decide

theorem tri_face (t : Tet T) {e e' : Code} (h : face e = face e') : SameThree (t.tri e) (t.tri e') := by
  rcases same_face e e' h with rfl | rfl | rfl
  · exact .refl' _
  · rw [t.tri_nfe]
    simp only [SameThree, Tet.tri]
    exact List.perm_append_comm (l₁ := [_, _]) (l₂ := [_])
  · rw [t.tri_pfe]
    simp only [SameThree, Tet.tri]
    exact List.perm_append_comm (l₁ := [_]) (l₂ := [_, _])

/-- Locking an edge. -/
theorem lockEdgeAt_ok {m : Mesh P V T} (hm : ConsistentT m) {w : Walker} {a b : VId} (hw : m.edge w = some (a, b)) :
    ∃ m', m.lockEdgeAt w = some m' ∧ Consistent m' ∧ SameVertices m m' ∧ (∀ q, HasTet m' q ↔ HasTet m q) ∧
      NewLocks m m' [(a, b)] [] ∧ LockedEdge m' a b := by
  obtain ⟨e, ue, h1, h2, h3⟩ := hm.toSpec.edgePtr w a b hw
  refine ⟨{ m with edges := m.edges.modify e fun ue => { ue with locked := true } }, ?_, (hm.lockEdge e true).toSpec,
    sameVertices_refl m, fun _ => .rfl, ⟨fun _ => id, ?_, fun _ => .inl, ?_⟩, e, { ue with locked := true }, ?_, h3, rfl⟩
  · simp [Mesh.lockEdgeAt, h1, h2]
  · rintro x y ⟨e', ue', k1, k2, k3⟩
    by_cases he : e' = e
    · subst he
      exact ⟨e', { ue' with locked := true }, by simp [IdMap.get_modify, k1], k2, rfl⟩
    · exact ⟨e', ue', by simp [IdMap.get_modify, k1, he], k2, k3⟩
  · rintro x y ⟨e', ue', k1, k2, k3⟩
    simp only [IdMap.get_modify] at k1
    split_ifs at k1 with he
    · subst he
      rw [h2] at k1
      cases k1
      rw [h3] at k2
      right
      simp only [Prod.mk.injEq] at k2
      simp only [List.mem_singleton, Prod.mk.injEq]
      omega
    · exact .inl ⟨e', ue', k1, k2, k3⟩
  · simp [IdMap.get_modify, h2]

/-- Locking a triangle from both sides. -/
theorem lockTriAt_ok {m : Mesh P V T} (hm : ConsistentT m) {w : Walker} {a b c : VId} (hw : m.tri w = some (a, b, c)) :
    ∃ m', m.lockTriAt w = some m' ∧ Consistent m' ∧ SameVertices m m' ∧ (∀ q, HasTet m' q ↔ HasTet m q) ∧
      NewLocks m m' [] [(a, b, c)] ∧ LockedTri m' (a, b, c) ∧ LockedTri m' (b, a, c) := by
  obtain ⟨t, ht, htri⟩ := Mesh.tri_iff.1 hw
  obtain ⟨w', h1, h2, h3, h4, h5⟩ := toAdjAe_live hm (w := w) (by simp [ht])
  obtain ⟨m1, m2, e1, e2, h6, h7, h8, h9⟩ := hm.lockTri h1
  have hadj : m1.toAdjAe w = some w' := by
    obtain ⟨m1', k1, -, k3⟩ := m.modTet_step (·.setLocked (face w.edge)) ht
    rw [e1] at k1
    cases k1
    simp only [Mesh.toAdjAe, k3, if_pos, ht, Option.map_some] at h1 ⊢
    exact h1
  have get : ∀ {k t}, m.tets.get k = some t → ∃ t', m2.tets.get k = some t' := by
    intro k t ht
    cases h : m2.tets.get k with
    | none => rw [(h8 k).2 h] at ht; cases ht
    | some t' => exact ⟨t', rfl⟩
  have get' : ∀ {k t'}, m2.tets.get k = some t' → ∃ t, m.tets.get k = some t := by
    intro k t' ht
    cases h : m.tets.get k with
    | none => rw [(h8 k).1 h] at ht; cases ht
    | some t => exact ⟨t, rfl⟩
  have hl2 : LockedTri m2 (a, b, c) := by
    obtain ⟨t2, ht2⟩ := get ht
    obtain ⟨k1, k2⟩ := h9 _ t t2 ht ht2
    refine ⟨w, Mesh.tri_iff.2 ⟨t2, ht2, by rw [(k1.funs _).2.1, htri]⟩, Mesh.triLocked_iff.2 ⟨t2, ht2, ?_⟩⟩
    rw [k2]
    simp [fid]
  refine ⟨m2, ?_, h6.toSpec, ?_, fun q => ?_, ⟨?_, ?_, ?_, ?_⟩, hl2, (h6.lockedTri_swap hl2).1⟩
  · simp only [Mesh.lockTriAt, e1, Option.bind_eq_bind, Option.bind_some, hadj, e2]
  · rw [h7.eq]
    exact ⟨fun _ => rfl, rfl, rfl, rfl⟩
  · rw [hasTet_iff, hasTet_iff]
    constructor
    · rintro ⟨k, t', k1, k2⟩
      obtain ⟨t, k3⟩ := get' k1
      exact ⟨k, t, k3, (h9 k t t' k3 k1).1.1 ▸ k2⟩
    · rintro ⟨k, t, k1, k2⟩
      obtain ⟨t', k3⟩ := get k1
      exact ⟨k, t', k3, by rw [(h9 k t t' k1 k3).1.1]; exact k2⟩
  · rintro s ⟨x, k1, k2⟩
    obtain ⟨t, k3, k4⟩ := Mesh.tri_iff.1 k1
    obtain ⟨t', k5, k6⟩ := Mesh.triLocked_iff.1 k2
    rw [k3] at k5
    cases k5
    obtain ⟨t2, ht2⟩ := get k3
    obtain ⟨j1, j2⟩ := h9 _ t t2 k3 ht2
    refine ⟨x, Mesh.tri_iff.2 ⟨t2, ht2, by rw [(j1.funs _).2.1, k4]⟩, Mesh.triLocked_iff.2 ⟨t2, ht2, ?_⟩⟩
    rw [j2, k6]
    rfl
  · rintro x y ⟨e, ue, k⟩
    exact ⟨e, ue, by rw [h7.eq]; exact k⟩
  · rintro s ⟨x, k1, k2⟩
    obtain ⟨t2, k3, k4⟩ := Mesh.tri_iff.1 k1
    obtain ⟨t2', k5, k6⟩ := Mesh.triLocked_iff.1 k2
    rw [k3] at k5
    cases k5
    obtain ⟨u, hu⟩ := get' k3
    obtain ⟨j1, j2⟩ := h9 _ u t2 hu k3
    rw [(j1.funs _).2.1] at k4
    rw [j2, Bool.or_eq_true, Bool.or_eq_true, decide_eq_true_eq, decide_eq_true_eq] at k6
    rcases k6 with (k6 | k6) | k6
    · exact .inl ⟨x, Mesh.tri_iff.2 ⟨u, hu, k4⟩, Mesh.triLocked_iff.2 ⟨u, hu, k6⟩⟩
    · refine .inr ⟨_, List.mem_singleton.2 rfl, ?_⟩
      simp only [fid, Prod.mk.injEq] at k6
      rw [k6.1, ht] at hu
      cases hu
      rw [← k4, ← htri]
      exact tri_face _ k6.2
    · refine .inr ⟨_, List.mem_singleton.2 rfl, ?_⟩
      obtain ⟨o, j3, j4⟩ := hm.adj_tri hw
      rw [h2, ← toAdj_across j3] at k6
      simp only [fid, Prod.mk.injEq] at k6
      obtain ⟨u', j5, j6⟩ := Mesh.tri_iff.1 j4
      rw [k6.1, j5] at hu
      cases hu
      have := tri_face u k6.2
      rw [k4, j6] at this
      exact List.Perm.trans this (List.Perm.swap _ _ _)
  · rintro x y ⟨e, ue, k⟩
    exact .inl ⟨e, ue, by rw [h7.eq] at k; exact k⟩

/-! ## Looking up edges -/

/-- What looking up an edge gives. -/
def EdgeFound (m : Mesh P V T) (e : VId × VId) : Option (Option Walker) → Prop
  | none => ¬ Solid m e.1
  | some none => Gone m (.edge e)
  | some (some w) => m.edge w = some e

theorem walkerFromEdge_does {m : Mesh P V T} (hm : Consistent m) (e : VId × VId) :
    Does (m.walkerFromEdge · e) (EdgeFound m e) := by
  obtain ⟨v, u⟩ := e
  by_cases hs : Solid m v
  · obtain ⟨w, r, N, h1, h2, h3⟩ := C33_edge hm hs.1 hs.2 u
    refine ⟨some r, ⟨N, h2⟩, ?_⟩
    rcases h3 with ⟨x, rfl, hx⟩ | ⟨rfl, h4⟩
    · exact hx
    · intro hc hh
      obtain ⟨c, d, x, hx⟩ := hm.toT.hasEdge_tet.1 hh
      obtain ⟨w', h1', h7⟩ := start_of hm hs.1 hs.2
      rw [h1] at h1'
      cases h1'
      exact h4 x (tet4_parts hx).2.2.1 (hc w x h7 (tet4_parts hx).1)
  · refine ⟨none, ⟨0, fun fuel _ => ?_⟩, hs⟩
    cases hv : m.vertices.get v with
    | none => simp [Mesh.walkerFromEdge, Mesh.vertexTargetWalkers, Mesh.walkerFromVertex, hv]
    | some x =>
      have hne : v ≠ GHOST := by
        rintro rfl
        rw [show GHOST = idMax from rfl, hm.stored.1.get_max] at hv
        cases hv
      rcases hm.vertexRef v x hv with h | h
      · have h2 : m.second x.tet = none := by
          simp [Mesh.second, h, hm.stored.2.2.get_max]
        cases fuel with
        | zero => simp [Mesh.walkerFromEdge, Mesh.vertexTargetWalkers, Mesh.walkerFromVertex, hv, Mesh.firstHit]
        | succ n =>
          simp [Mesh.walkerFromEdge, Mesh.vertexTargetWalkers, Mesh.walkerFromVertex, hv, Mesh.firstHit, Mesh.targetsNext,
            Mesh.targetsNextAux, h2]
      · exact absurd ⟨⟨_, h⟩, hne⟩ hs

/-! ## The loops -/

section loops
variable {tests : ProgressTests P V T}

theorem progressed_present {m m' : Mesh P V T} {g : EdgeOrTri} {bad} (h : Progressed tests m m' [g] bad none)
    (hp : Present m g) : Present m' g := h.blocked rfl g (List.mem_singleton.2 rfl) hp

theorem progressed_gone {m m' : Mesh P V T} {g : EdgeOrTri} {bad i} (h : Progressed tests m m' [g] bad (some i)) :
    ¬ Present m' g := by
  obtain ⟨⟨g', h1, h2⟩, -⟩ := h.removed i rfl
  have := List.mem_of_getElem? h1
  rw [List.mem_singleton] at this
  exact this ▸ h2

theorem checkIndex_of {m m' : Mesh P V T} {g : EdgeOrTri} {bad goals bad' r} (h : Progressed tests m m' [g] bad r) :
    Mesh.checkIndex (⟨m', goals, bad'⟩, r) = some (m', r.isSome) := by
  cases r with
  | none => rfl
  | some i =>
    have := C45_index (goals := []) h
    simp only [List.length_nil, Nat.le_zero] at this
    simp [Mesh.checkIndex, this]

/-- What trying to remove one element gives. -/
def OneDone (tests : ProgressTests P V T) (m : Mesh P V T) (g : EdgeOrTri) : Option (Mesh P V T × Bool) → Prop
  | none => ∃ e, g = .edge e ∧ ¬ Solid m e.1
  | some (m', ok) => ProgressRun tests m m' ∧ (ok = false → Present m' g) ∧ (ok = true → Gone m' g)

theorem removeOne_does {m : Mesh P V T} (h : RecoverReady tests.pos m) (depth : Nat) (g : EdgeOrTri) :
    Does (fun n => m.removeOne tests n depth g) (OneDone tests m g) := by
  have hm := h.consistent
  cases g with
  | tri t =>
    obtain ⟨r, h1, h2⟩ := C29_tracked hm h.tracked t
    rcases h2 with ⟨w, rfl, hw⟩ | ⟨rfl, h3⟩
    · obtain ⟨N, m', i, h4, h5⟩ := C46_tri h.progress (goodCall_nil m) hw depth
      obtain ⟨a, b, c⟩ := t
      refine ⟨some (m', i.isSome), ⟨N, fun n hn => ?_⟩, h5.run, fun hi => ?_, fun hi => ?_⟩
      · simp only [Mesh.removeOne, h1, Option.bind_eq_bind, Option.bind_some, h4 n hn]
        exact checkIndex_of h5
      · cases i with
        | some i => cases hi
        | none =>
          have hc : ConsistentT m' := (C46_run h.progress h5.run).1.consistent.toT
          exact (present_tri hc a b c).1 (progressed_present h5 ((present_tri hm.toT a b c).2 ⟨w, hw⟩))
      · cases i with
        | none => cases hi
        | some i =>
          have hc : ConsistentT m' := (C46_run h.progress h5.run).1.consistent.toT
          exact fun hp => progressed_gone h5 ((present_tri hc a b c).2 hp)
    · exact ⟨some (m, true), ⟨0, fun n _ => by simp [Mesh.removeOne, h1]⟩, .refl m, (fun h => by cases h),
        fun _ ⟨x, hx⟩ => h3 x hx⟩
  | edge e =>
    have := (walkerFromEdge_does hm e).bind (g := fun n r => match r with
      | none => some (m, true)
      | some w => (m.progressEdge tests n depth w [] []).bind Mesh.checkIndex) (R := OneDone tests m (.edge e)) ?_
      (fun hn _ => ⟨e, rfl, hn⟩)
    · refine this.congr fun n => ?_
      simp only [Mesh.removeOne, Option.bind_eq_bind]
      congr 1
    · intro r hr _
      cases r with
      | none => exact does_const ⟨.refl m, (fun h => by cases h), fun _ => hr⟩
      | some w =>
        obtain ⟨a, b⟩ := e
        obtain ⟨N, m', i, h4, h5⟩ := C46_edge h.progress (goodCall_nil m) hr depth
        refine ⟨some (m', i.isSome), ⟨N, fun n hn => ?_⟩, h5.run, fun hi => ?_, fun hi => ?_⟩
        · simp only [h4 n hn, Option.bind_some]
          exact checkIndex_of h5
        · cases i with
          | some i => cases hi
          | none =>
            refine (present_edge a b).1 (progressed_present h5 ((present_edge a b).2 ?_))
            obtain ⟨c, d, hcd⟩ := edge_tet4 hr
            exact hm.toT.hasEdge_tet.2 ⟨c, d, w, hcd⟩
        · cases i with
          | none => cases hi
          | some i => exact fun _ hp => progressed_gone h5 ((present_edge a b).2 hp)

theorem solid_run {m m' : Mesh P V T} (h : RecoverReady pos m) (hr : RecoverRun pos m m') (v : VId) :
    Solid m' v ↔ Solid m v := by
  unfold Solid
  rw [(run_keeps hr h.consistent.toT h.orient h.oriented).2.2.2 v]

/-- What removing the elements of a stack gives. -/
def StackDone (tests : ProgressTests P V T) (m : Mesh P V T) (l : List EdgeOrTri) :
    Option (Mesh P V T × List EdgeOrTri) → Prop
  | none => ∃ e, .edge e ∈ l ∧ ¬ Solid m e.1
  | some (m', l') => ProgressRun tests m m' ∧ (∀ g ∈ l', g ∈ l) ∧ (∀ g, l'.head? = some g → Present m' g) ∧
      ∀ g ∈ l, g ∈ l' ∨ Cleared tests m m' g

theorem Spec.Cleared.run {m m1 m2 m3 : Mesh P V T} {g : EdgeOrTri} (h : Cleared tests m1 m2 g) (h1 : ProgressRun tests m m1)
    (h3 : ProgressRun tests m2 m3) : Cleared tests m m3 g := by
  obtain ⟨m', k1, k2, k3⟩ := h
  exact ⟨m', h1.trans' k1, k2.trans' h3, k3⟩

theorem StackDone.step {m m1 : Mesh P V T} (h : RecoverReady tests.pos m) (hr : ProgressRun tests m m1) {l l1}
    (hl : ∀ g ∈ l1, g ∈ l) (hc : ∀ g ∈ l, g ∈ l1 ∨ Cleared tests m m1 g) {r} (hd : StackDone tests m1 l1 r) : StackDone tests m l r := by
  cases r with
  | none =>
    obtain ⟨e, h1, h2⟩ := hd
    exact ⟨e, hl _ h1, fun h3 => h2 ((solid_run h (recoverRun_of hr) _).2 h3)⟩
  | some r =>
    obtain ⟨h1, h2, h3, h4⟩ := hd
    refine ⟨hr.trans' h1, fun g hg => hl g (h2 g hg), h3, fun g hg => ?_⟩
    rcases hc g hg with k | k
    · exact (h4 g k).imp id fun k => k.run hr (.refl _)
    · exact .inr (k.run (.refl _) h1)

theorem removeStubborn_does (depth : Nat) : ∀ (l : List EdgeOrTri) {m : Mesh P V T}, RecoverReady tests.pos m →
    Does (fun n => Mesh.removeStubborn tests n depth l m) (StackDone tests m l)
  | [], m, _ => does_const ⟨.refl m, fun _ => id, (fun _ h => by cases h), fun _ => .inl⟩
  | g :: l, m, h => by
    refine Does.congr (Does.bind (removeOne_does h depth g) (g := fun n r =>
      if r.2 then Mesh.removeStubborn tests n depth l r.1 else some (r.1, g :: l)) ?_ ?_) fun n => ?_
    · rintro ⟨m1, ok⟩ ⟨h1, h2, h3⟩ -
      cases ok with
      | true =>
        exact (removeStubborn_does depth l (h.run (recoverRun_of h1))).mono fun r hr =>
          hr.step h h1 (fun _ => List.mem_cons_of_mem _) fun g' hg => by
            rcases List.mem_cons.1 hg with rfl | hg
            · exact .inr ⟨m1, h1, .refl m1, h3 rfl⟩
            · exact .inl hg
      | false =>
        refine does_const ⟨h1, fun _ => id, fun g' hg => ?_, fun _ => .inl⟩
        cases hg
        exact h2 rfl
    · rintro ⟨e, rfl, he⟩ -
      exact ⟨e, List.mem_cons_self, he⟩
    · simp only [Mesh.removeStubborn, Option.bind_eq_bind]
      rfl

theorem removeAll_does (depth : Nat) : ∀ (inters stubborn : List EdgeOrTri) {m : Mesh P V T}, RecoverReady tests.pos m →
    (∀ g, stubborn.head? = some g → Present m g) →
    Does (fun n => Mesh.removeAll tests n depth inters stubborn m) (StackDone tests m (inters ++ stubborn))
  | [], stubborn, m, _, hs => does_const ⟨.refl m, fun _ => id, hs, fun _ => .inl⟩
  | g :: inters, stubborn, m, h, hs => by
    have hsub : ∀ x ∈ g :: stubborn, x ∈ (g :: inters) ++ stubborn := by
      intro x hx
      rcases List.mem_cons.1 hx with rfl | hx
      · exact List.mem_cons_self
      · exact List.mem_append_right _ hx
    refine Does.congr (Does.bind (removeStubborn_does depth (g :: stubborn) h) (g := fun n r =>
      Mesh.removeAll tests n depth inters r.2 r.1) ?_ ?_) fun n => ?_
    · rintro ⟨m1, l1⟩ ⟨h1, h2, h3, h4⟩ -
      refine (removeAll_does depth inters l1 (h.run (recoverRun_of h1)) h3).mono fun r hr => hr.step h h1 ?_ fun x hx => ?_
      rotate_left
      · rcases List.mem_append.1 hx with hx | hx
        · rcases List.mem_cons.1 hx with rfl | hx
          · exact (h4 _ List.mem_cons_self).imp (List.mem_append_right _) id
          · exact .inl (List.mem_append_left _ hx)
        · exact (h4 _ (List.mem_cons_of_mem _ hx)).imp (List.mem_append_right _) id
      intro x hx
      rcases List.mem_append.1 hx with hx | hx
      · exact List.mem_append_left _ (List.mem_cons_of_mem _ hx)
      · exact hsub x (h2 x hx)
    · rintro ⟨e, h1, h2⟩ -
      exact ⟨e, hsub _ h1, h2⟩
    · simp only [Mesh.removeAll, Option.bind_eq_bind]

end loops

/-! ## Edges -/

variable {tests : RecoverTests P V T}

theorem recoverAndLockEdge_does {m : Mesh P V T} (h : RecoverReady tests.pos m) (hg : GoodSearch tests) (edge : VId × VId)
    (depth : Nat) : Does (fun n => m.recoverAndLockEdge tests n edge depth) (EdgeOutcome tests m edge) := by
  obtain ⟨r0, hr0⟩ := hg.edge m edge h
  refine Does.congr (Does.bind (f := fun n => tests.edgeInters n m edge) (Q := fun _ => True) ⟨r0, hr0, trivial⟩
    (g := fun n inters => (Mesh.removeAll (tests.forEdge edge) n depth inters.reverse [] m).bind fun r =>
      if r.2 = [] then (r.1.walkerFromEdge n edge).bind fun w => w.bind fun w => (r.1.lockEdgeAt w).bind fun m =>
        some (m, true)
      else some (r.1, false)) ?_ ?_) fun n => ?_
  · intro inters _ hin
    have h' : RecoverReady (tests.forEdge edge).pos m := h
    refine Does.bind (removeAll_does depth inters.reverse [] h' (fun _ hn => by cases hn)) ?_ ?_
    · rintro ⟨m1, st⟩ ⟨h1, h2, h3, h4⟩ -
      have h1r := h'.run (recoverRun_of h1)
      cases st with
      | nil =>
        simp only [if_true]
        have hcl : ∀ g ∈ inters, Cleared (tests.forEdge edge) m m1 g := fun g hg =>
          (h4 g (by simpa using hg)).resolve_left (by simp)
        refine Does.bind (walkerFromEdge_does h1r.consistent edge) ?_ ?_
        · intro w hw _
          cases w with
          | none => exact does_const (.inr (.inr ⟨inters, m1, hin, hcl, h1, .inr hw⟩))
          | some w =>
            obtain ⟨a, b⟩ := edge
            obtain ⟨m', k1, k2, k3, k4, k5, k6⟩ := lockEdgeAt_ok h1r.consistent.toT hw
            simp only [Option.bind_some, k1]
            have hrec : Recovered tests.pos m1 m' [(a, b)] [] := .of_locks h1r k5 k2 k3 k4
            exact does_const ⟨inters, m1, hin, hcl, h1, k5.locks k2 k3 k4, (Recovered.of_progress h' h1 [] []).trans' hrec, k6⟩
        · intro hn _
          exact .inr (.inr ⟨inters, m1, hin, hcl, h1, .inl fun hs => hn ((solid_run h' (recoverRun_of h1) _).2 hs)⟩)
      | cons g st =>
        simp only [reduceCtorEq, if_false]
        refine does_const ⟨h1, (C46_run h'.progress h1).2.2.1, .of_progress h' h1 [] [], inters, g, hin, ?_, h3 g rfl⟩
        simpa using h2 g List.mem_cons_self
    · rintro ⟨e, h1, h2⟩ -
      exact .inr (.inl ⟨inters, e, hin, by simpa using h1, h2⟩)
  · intro _ hn
    exact .inl hn
  · simp only [Mesh.recoverAndLockEdge, Option.bind_eq_bind]
    rfl

/-- The outcome of trying several depths. -/
def DepthsOutcome (tests : RecoverTests P V T) (m : Mesh P V T) (edge : VId × VId) (depths : List Nat) :
    Option (Mesh P V T × Bool) → Prop
  | none => ∃ m1, Recovered tests.pos m m1 [] [] ∧ EdgePanics tests m1 edge
  | some (m', true) => Recovered tests.pos m m' [edge] [] ∧ LockedEdge m' edge.1 edge.2
  | some (m', false) => Recovered tests.pos m m' [] [] ∧
      (depths = [] ∧ m' = m ∨
        ∃ m1, Recovered tests.pos m m1 [] [] ∧ Recovered tests.pos m1 m' [] [] ∧ EdgeBlocked tests m1 m' edge)

theorem recoverEdgeDepths_does (hg : GoodSearch tests) (edge : VId × VId) : ∀ (depths : List Nat) {m : Mesh P V T},
    RecoverReady tests.pos m →
    Does (fun n => Mesh.recoverEdgeDepths tests n edge depths m) (DepthsOutcome tests m edge depths)
  | [], m, h => does_const ⟨.refl' h _ _, .inl ⟨rfl, rfl⟩⟩
  | depth :: depths, m, h => by
    refine Does.congr (Does.bind (recoverAndLockEdge_does h hg edge depth) (g := fun n r =>
      if r.2 then some (r.1, true) else Mesh.recoverEdgeDepths tests n edge depths r.1) ?_ ?_) fun n => ?_
    · rintro ⟨m1, ok⟩ ho -
      cases ok with
      | true =>
        obtain ⟨l, m2, -, -, -, -, h1, h2⟩ := ho
        exact does_const ⟨h1, h2⟩
      | false =>
        obtain ⟨-, -, h1, h2⟩ := ho
        refine (recoverEdgeDepths_does hg edge depths h1.ready).mono ?_
        rintro (_ | ⟨m2, _ | _⟩)
        · rintro ⟨m2, k1, k2⟩
          exact ⟨m2, h1.trans' k1, k2⟩
        · rintro ⟨k1, k2⟩
          refine ⟨h1.trans' k1, .inr ?_⟩
          rcases k2 with ⟨-, rfl⟩ | ⟨m3, j1, j2, j3⟩
          · exact ⟨m, .refl' h _ _, h1, h2⟩
          · exact ⟨m3, h1.trans' j1, j2, j3⟩
        · rintro ⟨k1, k2⟩
          exact ⟨h1.trans' k1, k2⟩
    · intro hn _
      exact ⟨m, .refl' h _ _, hn⟩
    · simp only [Mesh.recoverEdgeDepths, Option.bind_eq_bind]
      rfl

/-- The outcome for several edges of which all are needed. -/
def AllEdgesOutcome (tests : RecoverTests P V T) (m : Mesh P V T) (edges : List (VId × VId)) :
    Option (Mesh P V T × Bool) → Prop
  | none => ∃ m1, Recovered tests.pos m m1 edges [] ∧ ∃ e ∈ edges, EdgePanics tests m1 e
  | some (m', true) => Recovered tests.pos m m' edges [] ∧ ∀ e ∈ edges, LockedEdge m' e.1 e.2
  | some (m', false) => Recovered tests.pos m m' edges [] ∧
      ∃ m1, Recovered tests.pos m m1 edges [] ∧ ∃ e ∈ edges, EdgeBlocked tests m1 m' e

theorem recoverEdgesOf_does (hg : GoodSearch tests) : ∀ (edges : List (VId × VId)) {m : Mesh P V T},
    RecoverReady tests.pos m → Does (fun n => Mesh.recoverEdgesOf tests n edges m) (AllEdgesOutcome tests m edges)
  | [], m, h => does_const ⟨.refl' h _ _, by simp⟩
  | edge :: edges, m, h => by
    have sub1 : ∀ e ∈ [edge], e ∈ edge :: edges := fun e he => by rw [List.mem_singleton.1 he]; exact List.mem_cons_self
    refine Does.congr (Does.bind (recoverEdgeDepths_does hg edge [1, 2, 4, 8] h) (g := fun n r =>
      if r.2 then Mesh.recoverEdgesOf tests n edges r.1 else some (r.1, false)) ?_ ?_) fun n => ?_
    · rintro ⟨m1, ok⟩ ho -
      cases ok with
      | true =>
        obtain ⟨h1, h2⟩ := ho
        refine (recoverEdgesOf_does hg edges h1.ready).mono ?_
        rintro (_ | ⟨m2, _ | _⟩)
        · rintro ⟨m2, k1, e, k2, k3⟩
          exact ⟨m2, h1.trans' k1, e, List.mem_cons_of_mem _ k2, k3⟩
        · rintro ⟨k1, m3, k2, e, k3, k4⟩
          exact ⟨h1.trans' k1, m3, h1.trans' k2, e, List.mem_cons_of_mem _ k3, k4⟩
        · rintro ⟨k1, k2⟩
          refine ⟨h1.trans' k1, fun e he => ?_⟩
          rcases List.mem_cons.1 he with rfl | he
          · exact k1.locks.edgeKept _ _ h2
          · exact k2 e he
      | false =>
        obtain ⟨h1, h2⟩ := ho
        rcases h2 with ⟨h2, -⟩ | ⟨m2, h2, -, h3⟩
        · cases h2
        · exact does_const ⟨h1.mono (by simp) (by simp), m2, h2.mono (by simp) (by simp), edge, List.mem_cons_self, h3⟩
    · rintro ⟨m1, h1, h2⟩ -
      exact ⟨m1, h1.mono (by simp) (by simp), edge, List.mem_cons_self, h2⟩
    · simp only [Mesh.recoverEdgesOf, Option.bind_eq_bind]
      rfl

/-- The outcome for each of several edges. -/
theorem recoverEach_does (hg : GoodSearch tests) : ∀ (edges : List (VId × VId)) {m : Mesh P V T},
    RecoverReady tests.pos m → Does (fun n => Mesh.recoverEach (fun m e => Mesh.recoverEdgeDepths tests n e [1, 2, 4, 8] m)
      edges m) (EdgesOutcome tests m edges)
  | [], m, h => does_const ⟨.refl' h _ _, by simp, by simp⟩
  | edge :: edges, m, h => by
    have sub : ∀ e ∈ edges, e ∈ edge :: edges := fun e he => List.mem_cons_of_mem _ he
    have key : ∀ (m1 : Mesh P V T) (ok : Bool) (h1 : Recovered tests.pos m m1 [edge] [])
        (h2 : ok = true → LockedEdge m1 edge.1 edge.2)
        (h3 : ok = false → ∃ m2, Recovered tests.pos m m2 [] [] ∧ Recovered tests.pos m2 m1 [] [] ∧ EdgeBlocked tests m2 m1 edge),
        Does (fun n => (Mesh.recoverEach (fun m e => Mesh.recoverEdgeDepths tests n e [1, 2, 4, 8] m) edges m1).bind
          fun r => some (r.1, if ok then r.2 else edge :: r.2)) (EdgesOutcome tests m (edge :: edges)) := by
      intro m1 ok h1 h2 h3
      refine Does.bind (recoverEach_does hg edges h1.ready) ?_ ?_
      · rintro ⟨m2, missing⟩ ⟨k1, k2, k3⟩ -
        refine does_const ⟨h1.trans' k1, fun e he => ?_, fun e he => ?_⟩
        · have hrest : e ∈ missing → e ∈ edge :: edges ∧ ∃ m3 m4, Recovered tests.pos m m3 (edge :: edges) [] ∧
              Recovered tests.pos m3 m4 [] [] ∧ Recovered tests.pos m4 m2 (edge :: edges) [] ∧ EdgeBlocked tests m3 m4 e := by
            intro he
            obtain ⟨j1, m3, m4, j2, j3, j4, j5⟩ := k2 e he
            exact ⟨sub e j1, m3, m4, h1.trans' j2, j3, j4.mono sub (by simp), j5⟩
          cases ok with
          | true => exact hrest he
          | false =>
            rcases List.mem_cons.1 he with rfl | he
            · obtain ⟨m3, j1, j2, j3⟩ := h3 rfl
              exact ⟨List.mem_cons_self, m3, m1, j1.mono (by simp) (by simp), j2, k1.mono sub (by simp), j3⟩
            · exact hrest he
        · rcases List.mem_cons.1 he with rfl | he
          · cases ok with
            | true => exact .inr (k1.locks.edgeKept _ _ (h2 rfl))
            | false => exact .inl List.mem_cons_self
          · rcases k3 e he with k | k
            · left
              cases ok
              · exact List.mem_cons_of_mem _ k
              · exact k
            · exact .inr k
      · rintro ⟨m2, k1, e, k2, k3⟩ -
        exact ⟨m2, h1.trans' k1, e, sub e k2, k3⟩
    refine Does.congr (Does.bind (recoverEdgeDepths_does hg edge [1, 2, 4, 8] h) (g := fun n r =>
      (Mesh.recoverEach (fun m e => Mesh.recoverEdgeDepths tests n e [1, 2, 4, 8] m) edges r.1).bind
          fun r' => some (r'.1, if r.2 then r'.2 else edge :: r'.2)) ?_ ?_) fun n => ?_
    · rintro ⟨m1, ok⟩ ho -
      cases ok with
      | true => exact key m1 true ho.1 (fun _ => ho.2) (fun h => by cases h)
      | false =>
        refine key m1 false (ho.1.mono (by simp) (by simp)) (fun h => by cases h) fun _ => ?_
        rcases ho.2 with ⟨h2, -⟩ | h2
        · cases h2
        · exact h2
    · rintro ⟨m1, h1, h2⟩ -
      exact ⟨m1, h1.mono (by simp) (by simp), edge, List.mem_cons_self, h2⟩
    · simp only [Mesh.recoverEach, Option.bind_eq_bind]
      rfl

/-! ## Triangles -/

/-- The outcome of trying several depths. -/
def TriDepthsOutcome (tests : RecoverTests P V T) (m : Mesh P V T) (t : V3) (depths : List Nat) :
    Option (Mesh P V T × Bool) → Prop
  | none => ∃ m1, Recovered tests.pos m m1 [] [] ∧ TriPanics tests m1 t
  | some (m', true) => Recovered tests.pos m m' [] [t] ∧ LockedTri m' t ∧ LockedTri m' (t.2.1, t.1, t.2.2)
  | some (m', false) => Recovered tests.pos m m' [] [] ∧
      (depths = [] ∧ m' = m ∨ ∃ m1, Recovered tests.pos m m1 [] [] ∧ TriBlocked tests m1 m' t)

theorem lockTriAt_recovered {m : Mesh P V T} (h : RecoverReady pos m) {w : Walker} {t : V3} (hw : m.tri w = some t) :
    ∃ m', m.lockTriAt w = some m' ∧ Recovered pos m m' [] [t] ∧ LockedTri m' t ∧ LockedTri m' (t.2.1, t.1, t.2.2) := by
  obtain ⟨a, b, c⟩ := t
  obtain ⟨m', h1, h2, h3, h4, h5, h6, h7⟩ := lockTriAt_ok h.consistent.toT hw
  exact ⟨m', h1, .of_locks h h5 h2 h3 h4, h6, h7⟩

theorem recoverTriDepths_does (hg : GoodSearch tests) (t : V3) : ∀ (depths : List Nat) {m : Mesh P V T},
    RecoverReady tests.pos m → Does (fun n => Mesh.recoverTriDepths tests n t depths m) (TriDepthsOutcome tests m t depths)
  | [], m, h => does_const ⟨.refl' h _ _, .inl ⟨rfl, rfl⟩⟩
  | depth :: depths, m, h => by
    obtain ⟨r, h1, h2⟩ := C29_tracked h.consistent h.tracked t
    rcases h2 with ⟨w, rfl, hw⟩ | ⟨rfl, h3⟩
    · obtain ⟨m', k1, k2, k3, k4⟩ := lockTriAt_recovered h hw
      refine ⟨some (m', true), ⟨0, fun n _ => ?_⟩, k2, k3, k4⟩
      simp [Mesh.recoverTriDepths, h1, k1]
    · have h' : RecoverReady (tests.forTri t).pos m := h
      obtain ⟨r0, hr0⟩ := hg.tri m t h
      refine Does.congr (Does.bind (f := fun n => tests.triInters n m t) (Q := fun _ => True) ⟨r0, hr0, trivial⟩
        (g := fun n inters => (Mesh.removeAll (tests.forTri t) n depth (inters.reverse.map .edge) [] m).bind fun r =>
          if r.2 = [] then (r.1.walkerFromTri n t).bind fun w => w.bind fun w => (r.1.lockTriAt w).bind fun m =>
            some (m, true)
          else Mesh.recoverTriDepths tests n t depths r.1) ?_ ?_) fun n => ?_
      · intro inters _ hin
        refine Does.bind (removeAll_does depth (inters.reverse.map .edge) [] h' (fun _ hn => by cases hn)) ?_ ?_
        · rintro ⟨m1, st⟩ ⟨j1, j2, j3, j4⟩ -
          have h1r := h'.run (recoverRun_of j1)
          have hrec : Recovered tests.pos m m1 [] [] := .of_progress h' j1 [] []
          cases st with
          | nil =>
            simp only [if_true]
            have hcl : ∀ e ∈ inters, Cleared (tests.forTri t) m m1 (.edge e) := fun e he =>
              (j4 (.edge e) (by simpa using he)).resolve_left (by simp)
            obtain ⟨r, k1, k2⟩ := C29_tracked h1r.consistent h1r.tracked t
            simp only [k1, Option.bind_some]
            rcases k2 with ⟨w, rfl, hw⟩ | ⟨rfl, k3⟩
            · obtain ⟨m', i1, i2, i3, i4⟩ := lockTriAt_recovered h1r hw
              simp only [Option.bind_some, i1]
              exact does_const ⟨hrec.trans' i2, i3, i4⟩
            · exact does_const ⟨m, .refl' h _ _, .inr (.inr ⟨inters, m1, hin, hcl, j1, fun ⟨x, hx⟩ => k3 x hx⟩)⟩
          | cons g st =>
            simp only [reduceCtorEq, if_false]
            obtain ⟨e, he, rfl⟩ : ∃ e ∈ inters, EdgeOrTri.edge e = g := by simpa using j2 g List.mem_cons_self
            have hb : TriBlocked tests m m1 t := ⟨inters, e, hin, he, j3 _ rfl⟩
            refine (recoverTriDepths_does hg t depths h1r).mono ?_
            rintro (_ | ⟨m2, _ | _⟩)
            · rintro ⟨m2, k1, k2⟩
              exact ⟨m2, hrec.trans' k1, k2⟩
            · rintro ⟨k1, k2⟩
              refine ⟨hrec.trans' k1, .inr ?_⟩
              rcases k2 with ⟨-, rfl⟩ | ⟨m3, i1, i2⟩
              · exact ⟨m, .refl' h _ _, hb⟩
              · exact ⟨m3, hrec.trans' i1, i2⟩
            · rintro ⟨k1, k2⟩
              exact ⟨hrec.trans' k1, k2⟩
        · rintro ⟨e, k1, k2⟩ -
          exact ⟨m, .refl' h _ _, .inr (.inl ⟨inters, e, hin, by simpa using k1, k2⟩)⟩
      · intro _ hn
        exact ⟨m, .refl' h _ _, .inl hn⟩
      · simp only [Mesh.recoverTriDepths, h1, Option.bind_eq_bind, Option.bind_some]
        rfl

theorem recoverAndLockTri_does (hg : GoodSearch tests) {m : Mesh P V T} (h : RecoverReady tests.pos m) (t : V3) :
    Does (fun n => m.recoverAndLockTri tests n t) (TriOutcome tests m t) := by
  refine Does.congr (Does.bind (recoverEdgesOf_does hg (triEdges t) h) (g := fun n r =>
    if r.2 then Mesh.recoverTriDepths tests n t [1, 2, 4, 8] r.1 else some (r.1, false)) ?_ ?_) fun n => ?_
  · rintro ⟨m1, ok⟩ ho -
    cases ok with
    | true =>
      obtain ⟨h1, h2⟩ := ho
      refine (recoverTriDepths_does hg t [1, 2, 4, 8] h1.ready).mono ?_
      rintro (_ | ⟨m2, _ | _⟩)
      · rintro ⟨m2, k1, k2⟩
        exact ⟨m2, (h1.trans' k1).mono (by simp) (by simp), .inr ⟨fun e he => k1.locks.edgeKept _ _ (h2 e he), k2⟩⟩
      · rintro ⟨k1, k2⟩
        refine ⟨(h1.trans' k1).mono (by simp) (by simp), ?_⟩
        rcases k2 with ⟨k2, -⟩ | ⟨m3, k2, k3⟩
        · cases k2
        · exact ⟨m3, (h1.trans' k2).mono (by simp) (by simp), .inr ⟨fun e he => k2.locks.edgeKept _ _ (h2 e he), k3⟩⟩
      · rintro ⟨k1, k2, k3⟩
        exact ⟨(h1.trans' k1).mono (by simp) (by simp), k2, k3, fun e he => k1.locks.edgeKept _ _ (h2 e he)⟩
    | false =>
      obtain ⟨h1, m2, h2, e, h3, h4⟩ := ho
      exact does_const ⟨h1, m2, h2, .inl ⟨e, h3, h4⟩⟩
  · rintro ⟨m1, h1, e, h2, h3⟩ -
    exact ⟨m1, h1, .inl ⟨e, h2, h3⟩⟩
  · simp only [Mesh.recoverAndLockTri, Option.bind_eq_bind]
    rfl

/-! ## The boundary -/

theorem recoverTris_does (hg : GoodSearch tests) : ∀ (tris : List V3) {m : Mesh P V T}, RecoverReady tests.pos m →
    Does (fun n => Mesh.recoverTris tests n tris m) (TrisOutcome tests m tris)
  | [], m, h => does_const ⟨.refl' h _ _, by simp, by simp⟩
  | t :: tris, m, h => by
    have sub : ∀ e ∈ tris, e ∈ t :: tris := fun e he => List.mem_cons_of_mem _ he
    have sub' : ∀ e ∈ tris.flatMap triEdges, e ∈ (t :: tris).flatMap triEdges := fun e he => by
      rw [List.flatMap_cons]
      exact List.mem_append_right _ he
    have sub0 : ∀ e ∈ triEdges t, e ∈ (t :: tris).flatMap triEdges := fun e he => by
      rw [List.flatMap_cons]
      exact List.mem_append_left _ he
    have key : ∀ (m1 : Mesh P V T) (ok : Bool), Recovered tests.pos m m1 (triEdges t) [t] →
        TriOutcome tests m t (some (m1, ok)) →
        Does (fun n => (Mesh.recoverTris tests n tris m1).bind fun r => some (r.1, if ok then r.2 else t :: r.2))
          (TrisOutcome tests m (t :: tris)) := by
      intro m1 ok h1 ho
      refine Does.bind (recoverTris_does hg tris h1.ready) ?_ ?_
      · rintro ⟨m2, missing⟩ ⟨k1, k2, k3⟩ -
        refine does_const ⟨h1.trans' k1, fun s hs => ?_, fun s hs => ?_⟩
        · have hrest : s ∈ missing → s ∈ t :: tris ∧ ∃ m3 m4,
              Recovered tests.pos m m3 ((t :: tris).flatMap triEdges) (t :: tris) ∧
              TriOutcome tests m3 s (some (m4, false)) ∧
              Recovered tests.pos m4 m2 ((t :: tris).flatMap triEdges) (t :: tris) := by
            intro hs
            obtain ⟨j1, m3, m4, j2, j3, j4⟩ := k2 s hs
            exact ⟨sub s j1, m3, m4, h1.trans' j2, j3, j4.mono sub' sub⟩
          cases ok with
          | true => exact hrest hs
          | false =>
            rcases List.mem_cons.1 hs with rfl | hs
            · exact ⟨List.mem_cons_self, m, m1, .refl' h _ _, ho, k1.mono sub' sub⟩
            · exact hrest hs
        · rcases List.mem_cons.1 hs with rfl | hs
          · cases ok with
            | true =>
              obtain ⟨-, j1, j2, -⟩ := ho
              exact .inr ⟨k1.locks.triKept _ j1, k1.locks.triKept _ j2⟩
            | false => exact .inl List.mem_cons_self
          · rcases k3 s hs with k | k
            · left
              cases ok
              · exact List.mem_cons_of_mem _ k
              · exact k
            · exact .inr k
      · rintro ⟨m2, k1, s, k2, k3⟩ -
        exact ⟨m2, h1.trans' k1, s, sub s k2, k3⟩
    refine Does.congr (Does.bind (recoverAndLockTri_does hg h t) (g := fun n r =>
      (Mesh.recoverTris tests n tris r.1).bind fun r' => some (r'.1, if r.2 then r'.2 else t :: r'.2)) ?_ ?_) fun n => ?_
    · rintro ⟨m1, ok⟩ ho -
      cases ok with
      | true => exact key m1 true ho.1 ho
      | false => exact key m1 false (ho.1.mono (by simp) (by simp)) ho
    · intro ho _
      exact ⟨m, .refl' h _ _, t, List.mem_cons_self, ho⟩
    · simp only [Mesh.recoverTris, Option.bind_eq_bind]
      rfl

/-- The first pass: triangles that are there. -/
theorem lockPlcTris_does : ∀ (tris : List V3) {m : Mesh P V T}, RecoverReady pos m →
    ∃ m' missing, (∀ n, Mesh.lockPlcTris n tris m = some (m', missing)) ∧ Recovered pos m m' [] tris ∧
      (∀ t, t ∈ missing ↔ t ∈ tris ∧ ¬ HasTri m t) ∧ (∀ q, HasTet m' q ↔ HasTet m q) ∧
      ∀ t ∈ tris, HasTri m t → LockedTri m' t ∧ LockedTri m' (t.2.1, t.1, t.2.2)
  | [], m, h => ⟨m, [], fun _ => rfl, .refl' h _ _, by simp, fun _ => .rfl, by simp⟩
  | t :: tris, m, h => by
    obtain ⟨r, h1, h2⟩ := C29_tracked h.consistent h.tracked t
    have htri : ∀ {m m' : Mesh P V T}, (∀ q, HasTet m' q ↔ HasTet m q) → ∀ s, HasTri m' s ↔ HasTri m s := by
      rintro m m' ht ⟨a, b, c⟩
      rw [hasTri_iff, hasTri_iff]
      simp only [ht]
    rcases h2 with ⟨w, rfl, hw⟩ | ⟨rfl, h3⟩
    · obtain ⟨a, b, c⟩ := t
      obtain ⟨m1, k1, k2, k3, k4, k5, k6, k7⟩ := lockTriAt_ok h.consistent.toT hw
      have hr : Recovered pos m m1 [] [(a, b, c)] := .of_locks h k5 k2 k3 k4
      obtain ⟨m', missing, j1, j2, j3, j4, j5⟩ := lockPlcTris_does tris hr.ready
      refine ⟨m', missing, fun n => ?_, hr.trans' j2, fun s => ?_, fun q => (j4 q).trans (k4 q), fun s hs hh => ?_⟩
      · simp only [Mesh.lockPlcTris, h1, Option.bind_eq_bind, Option.bind_some, k1, j1]
      · rw [j3 s, htri k4, List.mem_cons]
        constructor
        · rintro ⟨i1, i2⟩
          exact ⟨.inr i1, i2⟩
        · rintro ⟨rfl | i1, i2⟩
          · exact absurd ⟨w, hw⟩ i2
          · exact ⟨i1, i2⟩
      · rcases List.mem_cons.1 hs with rfl | hs
        · exact ⟨j2.locks.triKept _ k6, j2.locks.triKept _ k7⟩
        · exact j5 s hs ((htri k4 s).2 hh)
    · obtain ⟨m', missing, j1, j2, j3, j4, j5⟩ := lockPlcTris_does tris h
      have hno : ¬ HasTri m t := fun ⟨x, hx⟩ => h3 x hx
      refine ⟨m', t :: missing, fun n => ?_, j2.mono (by simp) (fun _ => List.mem_cons_of_mem _), fun s => ?_, j4, fun s hs hh => ?_⟩
      · simp only [Mesh.lockPlcTris, h1, Option.bind_eq_bind, Option.bind_some, j1]
        rfl
      · rw [List.mem_cons, j3 s, List.mem_cons]
        constructor
        · rintro (rfl | ⟨i1, i2⟩)
          · exact ⟨.inl rfl, hno⟩
          · exact ⟨.inr i1, i2⟩
        · rintro ⟨rfl | i1, i2⟩
          · exact .inl rfl
          · exact .inr ⟨i1, i2⟩
      · rcases List.mem_cons.1 hs with rfl | hs
        · exact absurd hh hno
        · exact j5 s hs hh

theorem boundary_does (hg : GoodSearch tests) {m m1 : Mesh P V T} (h1 : m.setTrackTriMap true = some m1)
    (h : RecoverReady tests.pos m1) (tris : List V3) :
    Does (fun n => m.recoverAndLockBoundary tests n tris) (TrisOutcome tests m1 (tris.map sorted3)) := by
  obtain ⟨m2, missing, k1, k2, k3, -, k4⟩ := lockPlcTris_does (tris.map sorted3) h
  have sub : ∀ t ∈ missing, t ∈ tris.map sorted3 := fun t ht => ((k3 t).1 ht).1
  have sub' : ∀ e ∈ missing.flatMap triEdges, e ∈ (tris.map sorted3).flatMap triEdges := by
    intro e he
    obtain ⟨t, h1, h2⟩ := List.mem_flatMap.1 he
    exact List.mem_flatMap.2 ⟨t, sub t h1, h2⟩
  have up : ∀ {m3 m4}, Recovered tests.pos m3 m4 (missing.flatMap triEdges) missing →
      Recovered tests.pos m3 m4 ((tris.map sorted3).flatMap triEdges) (tris.map sorted3) := fun h => h.mono sub' sub
  have up0 : ∀ {m3}, Recovered tests.pos m2 m3 (missing.flatMap triEdges) missing →
      Recovered tests.pos m1 m3 ((tris.map sorted3).flatMap triEdges) (tris.map sorted3) := by
    intro m3 h
    refine (k2.trans' h).mono (by simpa using sub') fun t ht => ?_
    rcases List.mem_append.1 ht with ht | ht
    · exact ht
    · exact sub t ht
  refine Does.congr ((recoverTris_does hg missing k2.ready).mono (R := TrisOutcome tests m1 (tris.map sorted3)) ?_) fun n => ?_
  · rintro (_ | ⟨m', left⟩)
    · rintro ⟨m3, j1, t, j2, j3⟩
      exact ⟨m3, up0 j1, t, sub t j2, j3⟩
    · rintro ⟨j1, j2, j3⟩
      refine ⟨up0 j1, fun t ht => ?_, fun t ht => ?_⟩
      · obtain ⟨i1, m3, m4, i2, i3, i4⟩ := j2 t ht
        exact ⟨sub t i1, m3, m4, up0 i2, i3, up i4⟩
      · by_cases hh : HasTri m1 t
        · obtain ⟨i1, i2⟩ := k4 t ht hh
          exact .inr ⟨j1.locks.triKept _ i1, j1.locks.triKept _ i2⟩
        · exact j3 t ((k3 t).2 ⟨ht, hh⟩)
  · simp only [Mesh.recoverAndLockBoundary, Option.bind_eq_bind, h1, Option.bind_some, k1]

/-! ## The edges of a PLC -/

/-- One round of the first loop. -/
def lockStep (edges : List (VId × VId)) (m : Mesh P V T) (e : EId) : Mesh P V T :=
  match m.edges.get e with
  | none => m
  | some ue => if ue.vertices ∈ edges then { m with edges := m.edges.modify e fun ue => { ue with locked := true } } else m

theorem lockStep_ok (edges : List (VId × VId)) {m : Mesh P V T} (hm : ConsistentT m) (e : EId) :
    ConsistentT (lockStep edges m e) ∧ lockStep edges m e = { m with edges := (lockStep edges m e).edges } ∧
      ∀ e', (lockStep edges m e).edges.get e' = (m.edges.get e').map fun ue =>
        if e' = e ∧ ue.vertices ∈ edges then { ue with locked := true } else ue := by
  cases he : m.edges.get e with
  | none =>
    simp only [lockStep, he]
    refine ⟨hm, trivial, fun e' => ?_⟩
    by_cases h : e' = e
    · rw [h, he]
      rfl
    · simp [h]
  | some ue =>
    by_cases hv : ue.vertices ∈ edges
    · simp only [lockStep, he, if_pos hv]
      refine ⟨hm.lockEdge e true, trivial, fun e' => ?_⟩
      rw [IdMap.get_modify]
      by_cases h : e' = e
      · simp [h, he, hv]
      · simp [h]
    · simp only [lockStep, he, if_neg hv]
      refine ⟨hm, trivial, fun e' => ?_⟩
      by_cases h : e' = e
      · simp [h, he, hv]
      · simp [h]

theorem lockSteps_ok (edges : List (VId × VId)) : ∀ (ks : List EId) {m : Mesh P V T}, ConsistentT m →
    ConsistentT (ks.foldl (lockStep edges) m) ∧
      ks.foldl (lockStep edges) m = { m with edges := (ks.foldl (lockStep edges) m).edges } ∧
      ∀ e', (ks.foldl (lockStep edges) m).edges.get e' = (m.edges.get e').map fun ue =>
        if e' ∈ ks ∧ ue.vertices ∈ edges then { ue with locked := true } else ue
  | [], m, hm => ⟨hm, rfl, fun e' => by simp⟩
  | k :: ks, m, hm => by
    obtain ⟨h1, h2, h3⟩ := lockStep_ok edges hm k
    obtain ⟨k1, k2, k3⟩ := lockSteps_ok edges ks h1
    refine ⟨k1, ?_, fun e' => ?_⟩
    · rw [List.foldl_cons, k2, h2]
    · rw [List.foldl_cons, k3, h3, Option.map_map]
      congr 1
      funext ue
      simp only [Function.comp, List.mem_cons]
      by_cases c1 : ue.vertices ∈ edges <;> by_cases c2 : e' = k <;> by_cases c3 : e' ∈ ks <;> simp [c1, c2, c3]

theorem lockPlcEdges_ok {m : Mesh P V T} (h : RecoverReady pos m) (edges : List (VId × VId)) :
    Recovered pos m (m.lockPlcEdges edges) edges [] ∧ (∀ q, HasTet (m.lockPlcEdges edges) q ↔ HasTet m q) ∧
      ∀ a b, HasEdge m a b → (min a b, max a b) ∈ edges → LockedEdge (m.lockPlcEdges edges) a b := by
  have he : m.lockPlcEdges edges = m.edges.keys.foldl (lockStep edges) m := rfl
  obtain ⟨k1, k2, k3⟩ := lockSteps_ok edges m.edges.keys h.consistent.toT
  rw [← he] at k1 k2 k3
  have hget : ∀ {e ue}, m.edges.get e = some ue → (m.lockPlcEdges edges).edges.get e =
      some (if ue.vertices ∈ edges then { ue with locked := true } else ue) := by
    intro e ue hu
    rw [k3, hu, Option.map_some]
    have : e ∈ m.edges.keys := IdMap.mem_keys.2 (by simp [hu])
    simp [this]
  have htri : ∀ s, LockedTri (m.lockPlcEdges edges) s ↔ LockedTri m s := by
    intro s
    rw [k2]
    exact .rfl
  have htet : ∀ q, HasTet (m.lockPlcEdges edges) q ↔ HasTet m q := by
    intro s
    rw [k2]
    exact .rfl
  refine ⟨.of_locks h ⟨fun s => (htri s).2, ?_, fun s hs => .inl ((htri s).1 hs), ?_⟩ k1.toSpec ?_ htet, htet, ?_⟩
  · rintro a b ⟨e, ue, h1, h2, h3⟩
    refine ⟨e, _, hget h1, ?_, ?_⟩
    · split_ifs <;> exact h2
    · split_ifs
      · rfl
      · exact h3
  · rintro a b ⟨e, ue', h1, h2, h3⟩
    rw [k3, Option.map_eq_some_iff] at h1
    obtain ⟨ue, h4, h5⟩ := h1
    split_ifs at h5 with hc
    · subst h5
      right
      have hv : ue.vertices = (min a b, max a b) := h2
      have := hc.2
      rw [hv] at this
      rcases le_total a b with hab | hab
      · left
        rwa [min_eq_left hab, max_eq_right hab] at this
      · right
        rwa [min_eq_right hab, max_eq_left hab] at this
    · subst h5
      exact .inl ⟨e, ue, h4, h2, h3⟩
  · rw [k2]
    exact sameVertices_refl m
  · rintro a b ⟨e, ue, h1, h2⟩ hin
    refine ⟨e, _, hget h1, ?_, ?_⟩
    · rw [h2, if_pos hin]
    · rw [h2, if_pos hin]

theorem sorted2_min (a b : VId) : sorted2 (a, b) = (min a b, max a b) := by
  rcases sorted2_cases a b with ⟨h1, h2⟩ | ⟨h1, h2⟩
  · rw [h1, min_eq_left h2, max_eq_right h2]
  · rw [h1, min_eq_right h2, max_eq_left h2]

theorem sorted2_idem (e : VId × VId) : sorted2 (sorted2 e) = sorted2 e := by
  obtain ⟨a, b⟩ := e
  rw [sorted2_min, sorted2_min]
  simp

theorem edges_does (hg : GoodSearch tests) {m : Mesh P V T} (h : RecoverReady tests.pos m)
    {order : List (VId × VId) → List (VId × VId)} (ho : ∀ l e, e ∈ order l ↔ e ∈ l) (plc : List (VId × VId)) :
    Does (fun n => m.recoverAndLockEdges tests n order plc) (EdgesOutcome tests m (plc.map sorted2)) := by
  obtain ⟨h1, -, h2⟩ := lockPlcEdges_ok h (plc.map sorted2)
  set edges := plc.map sorted2 with hed
  set left := order (edges.filter fun e => !(m.edges.values.any fun ue => decide (ue.vertices = e))) with hl
  have hmem : ∀ e, e ∈ left ↔ e ∈ edges ∧ ¬ HasEdge m e.1 e.2 := by
    intro e
    rw [hl, ho, List.mem_filter]
    refine and_congr_right fun he => ?_
    rw [Bool.not_eq_true', ← Bool.not_eq_true, not_iff_not, List.any_eq_true]
    obtain ⟨p, -, rfl⟩ := List.mem_map.1 he
    have hs : (min (sorted2 p).1 (sorted2 p).2, max (sorted2 p).1 (sorted2 p).2) = sorted2 p := by
      rw [← sorted2_min]
      exact sorted2_idem p
    simp only [decide_eq_true_eq, IdMap.mem_values, HasEdge, hs]
    constructor
    · rintro ⟨ue, ⟨k, hk⟩, hv⟩
      exact ⟨k, ue, hk, hv⟩
    · rintro ⟨k, ue, hk, hv⟩
      exact ⟨ue, ⟨k, hk⟩, hv⟩
  have sub : ∀ e ∈ left, e ∈ edges := fun e he => ((hmem e).1 he).1
  have up : ∀ {m3 m4}, Recovered tests.pos m3 m4 left [] → Recovered tests.pos m3 m4 edges [] := fun h => h.mono sub (by simp)
  have up0 : ∀ {m3}, Recovered tests.pos (m.lockPlcEdges edges) m3 left [] → Recovered tests.pos m m3 edges [] := by
    intro m3 h
    refine (h1.trans' h).mono (fun e he => ?_) (by simp)
    rcases List.mem_append.1 he with he | he
    · exact he
    · exact sub e he
  refine Does.congr ((recoverEach_does hg left h1.ready).mono (R := EdgesOutcome tests m edges) ?_) fun n => ?_
  · rintro (_ | ⟨m', missing⟩)
    · rintro ⟨m3, j1, t, j2, j3⟩
      exact ⟨m3, up0 j1, t, sub t j2, j3⟩
    · rintro ⟨j1, j2, j3⟩
      refine ⟨up0 j1, fun e he => ?_, fun e he => ?_⟩
      · obtain ⟨i1, m3, m4, i2, i3, i4, i5⟩ := j2 e he
        exact ⟨sub e i1, m3, m4, up0 i2, i3, up i4, i5⟩
      · by_cases hh : HasEdge m e.1 e.2
        · obtain ⟨p, hp, rfl⟩ := List.mem_map.1 he
          refine .inr (j1.locks.edgeKept _ _ (h2 _ _ hh ?_))
          rw [← sorted2_min, show ((sorted2 p).1, (sorted2 p).2) = sorted2 p from rfl, sorted2_idem]
          exact he
        · exact j3 e ((hmem e).2 ⟨he, hh⟩)
  · rfl

end Tet
