import Verif.Proofs.FlipInDrop

/-!
# Filling a cavity: one tet for each outer triangle
-/

namespace Tet
open Spec
variable {P V T : Type}

/-- After the removing loop. -/
structure Dropped (m : Mesh P V T) (B : List Walker) (E : List TId) (m2 : Mesh P V T) : Prop where
  eq : m2 = { m with tets := m2.tets, edges := m2.edges, triMap := m2.triMap }
  twf : m2.tets.WF
  ewf : m2.edges.WF
  tsize : m2.tets.size ≤ m.tets.size
  esize : m2.edges.size ≤ m.edges.size
  out : ∀ k, k ∉ E → m2.tets.get k = m.tets.get k
  inn : ∀ b ∈ B, ∀ t, m.tets.get b.tet = some t → m2.tets.get b.tet = some (t.setBoundary true)
  only : ∀ k, (m2.tets.get k).isSome → (k ∉ E ∧ (m.tets.get k).isSome) ∨ ∃ b ∈ B, k = b.tet
  touched : ∀ e ue, Touched m B e → m.edges.get e = some ue → m2.edges.get e = some { ue with boundary := true }
  gone : ∀ e k t i, ¬ Touched m B e → k ∈ E → m.tets.get k = some t → t.edges i = e → m2.edges.get e = none
  kept : ∀ e, ¬ Touched m B e → (∀ k t i, k ∈ E → m.tets.get k = some t → t.edges i ≠ e) →
    m2.edges.get e = m.edges.get e
  tri : (m.trackTriMap = false → m2.triMap = m.triMap) ∧ (m.trackTriMap = true →
      (∀ s k t, k ∈ E → m.tets.get k = some t → HasKey t s → m2.triMap s = none) ∧
      (∀ s, (∀ k t, k ∈ E → m.tets.get k = some t → ¬ HasKey t s) → m2.triMap s = m.triMap s))

section
variable {m : Mesh P V T} {v : VId} {B : List Walker} {E : List TId}

theorem FI.drop (h : FI m v B E) : ∃ m0 m1 m2, m.triRemoveTets E = some m0 ∧ B.foldlM Mesh.fiMark m0 = some m1 ∧
    E.foldlM Mesh.fiDrop m1 = some m2 ∧ Dropped m B E m2 := by
  obtain ⟨tm, a1, a2⟩ := Mesh.triRemoveTets_spec E m fun k hk => Option.isSome_iff_exists.1 (h.fill.live k hk)
  have hm0 : ConsistentT m := h.cons
  have hB : ∀ b ∈ B, b.tet ∈ E := fun b hb => (h.outer_mem hb).1
  -- marking does not look at the index
  have hmark : ∃ m1, B.foldlM Mesh.fiMark { m with triMap := tm } = some m1 ∧
      TEStep { m with triMap := tm } m1 ∧ m1.tets.size = m.tets.size ∧ m1.edges.size = m.edges.size ∧
      (∀ k, m1.tets.get k = (m.tets.get k).map fun t => if k ∈ B.map (·.tet) then t.setBoundary true else t) ∧
      ∀ e, (Touched m B e → m1.edges.get e = (m.edges.get e).map fun ue => { ue with boundary := true }) ∧
        (¬ Touched m B e → m1.edges.get e = m.edges.get e) := by
    obtain ⟨m1, b1, b2, b3, b4, b5, b6⟩ := fiMark_fold (m := { m with triMap := tm })
      (fun k t c ht => h.cons.eptr k t c ht) B
      (fun b hb => h.fill.live _ (hB b hb))
    refine ⟨m1, b1, b2, b3, b4, b5, fun e => ⟨fun he => ?_, fun he => ?_⟩⟩
    · have he' : Touched { m with triMap := tm } B e := he
      rw [b6]
      simp [he']
    · have he' : ¬ Touched { m with triMap := tm } B e := he
      rw [b6]
      simp [he']
  obtain ⟨m1, b1, b2, b3, b4, b5, b6⟩ := hmark
  have g1 : ∀ k ∈ E, (m1.tets.get k).isSome := by
    intro k hk
    rw [b5, Option.isSome_map]
    exact h.fill.live k hk
  obtain ⟨m2, c1, c2, c3, c4, c5, c6⟩ := fiDrop_fold m1 (b2.twf h.cons.stored.2.2) (b2.ewf h.cons.stored.2.1) E h.nodup g1
  have te := b2.trans c2
  refine ⟨_, m1, m2, a1, b1, c1, ?_⟩
  have hbb : ∀ k t, m1.tets.get k = some t → (t.flags.boundary = false ↔ k ∉ B.map (·.tet)) := by
    intro k t ht
    rw [b5] at ht
    obtain ⟨t0, h1, h2⟩ := Option.map_eq_some_iff.1 ht
    have := (h.tidy.tets k t0 h1).1
    by_cases hk : k ∈ B.map (·.tet)
    · rw [if_pos hk] at h2
      rw [← h2]
      simp [hk, Tet.setBoundary]
    · rw [if_neg hk] at h2
      rw [← h2]
      simp [hk, this]
  have hedge : ∀ k t1 i, m1.tets.get k = some t1 → ∃ t, m.tets.get k = some t ∧ t.edges i = t1.edges i := by
    intro k t1 i ht
    rw [b5] at ht
    obtain ⟨t0, h1, h2⟩ := Option.map_eq_some_iff.1 ht
    refine ⟨t0, h1, ?_⟩
    rw [← h2]
    split_ifs <;> rfl
  have hef : ∀ e ue, m1.edges.get e = some ue → (ue.boundary = false ↔ ¬ Touched m B e) := by
    intro e ue he
    by_cases ht : Touched m B e
    · rw [(b6 e).1 ht] at he
      obtain ⟨ue0, h1, h2⟩ := Option.map_eq_some_iff.1 he
      rw [← h2]
      simp [ht]
    · rw [(b6 e).2 ht] at he
      simp [ht, (h.tidy.edges e ue he).1]
  refine ⟨?_, te.twf h.cons.stored.2.2, te.ewf h.cons.stored.2.1, by omega, by omega, ?_, ?_, ?_, ?_, ?_, ?_, ?_⟩
  · rw [te.eq]
  · intro k hk
    have hkB : k ∉ B.map (·.tet) := by
      intro hkB
      obtain ⟨b, hb, rfl⟩ := List.mem_map.1 hkB
      exact hk (hB b hb)
    rw [c5, if_neg (fun h => hk h.1), b5]
    simp only [hkB, if_false, Option.map_id']
  · intro b hb t ht
    have hmem : b.tet ∈ B.map (·.tet) := List.mem_map_of_mem hb
    have h1 : m1.tets.get b.tet = some (t.setBoundary true) := by rw [b5, ht, Option.map_some, if_pos hmem]
    rw [c5, if_neg, h1]
    rintro ⟨-, t', h2, h3⟩
    exact (hbb _ _ h2).1 h3 hmem
  · intro k hk
    by_cases hkE : k ∈ E
    · right
      obtain ⟨t, ht⟩ := Option.isSome_iff_exists.1 hk
      rw [c5] at ht
      split_ifs at ht with hc
      by_contra hno
      refine hc ⟨hkE, t, ht, (hbb _ _ ht).2 ?_⟩
      intro hkB
      obtain ⟨b, hb, rfl⟩ := List.mem_map.1 hkB
      exact hno ⟨b, hb, rfl⟩
    · left
      rw [c5, if_neg (fun h => hkE h.1), b5, Option.isSome_map] at hk
      exact ⟨hkE, hk⟩
  · intro e ue ht he
    have h1 : m1.edges.get e = some { ue with boundary := true } := by rw [(b6 e).1 ht, he]; rfl
    rw [c6, if_neg, h1]
    rintro ⟨-, ue', h2, h3⟩
    exact (hef _ _ h2).1 h3 ht
  · intro e k t i ht hk hkt hi
    cases he : m.edges.get e with
    | none =>
      rw [c6, (b6 e).2 ht, he]
      simp
    | some ue =>
      rw [c6, if_pos]
      have h1 : m1.edges.get e = some ue := by rw [(b6 e).2 ht, he]
      refine ⟨⟨k, hk, _, i, by rw [b5, hkt, Option.map_some], ?_⟩, ue, h1, (hef _ _ h1).2 ht⟩
      split_ifs <;> exact hi
  · intro e ht hno
    rw [c6, if_neg, (b6 e).2 ht]
    rintro ⟨⟨k, hk, t1, i, h1, h2⟩, -⟩
    obtain ⟨t, h3, h4⟩ := hedge k t1 i h1
    exact hno k t i hk h3 (h4.trans h2)
  · have : m2.triMap = tm := by rw [te.eq]
    rw [this]
    exact a2

/-! ## Duplicating -/

/-- The walker in the new tets. -/
def nw (A : TId × Fin 4 → TId) (w : Walker) : Walker := ⟨A (fid w), w.edge⟩

def Af (A : TId × Fin 4 → TId) (k : TId) (f : Fin 4) : TId × Code := (A (k, f), P0123)

theorem moved_Af (A : TId × Fin 4 → TId) (w : Walker) : moved (Af A) w = nw A w := by
  simp only [moved, Af, nw, permInv_id]; rfl

/-- While the tets are duplicated for the walkers `done`. -/
structure DupInv (m m2 : Mesh P V T) (B : List Walker) (E : List TId) (done : List Walker) (A : TId × Fin 4 → TId)
    (cur : Mesh P V T) : Prop where
  eq : cur = { m2 with tets := cur.tets }
  wf : cur.tets.WF
  size : cur.tets.size ≤ m2.tets.size + done.length
  out : ∀ k t, k ∉ E → m.tets.get k = some t → cur.tets.get k = some (patch E (Af A) t)
  inn : ∀ b ∈ done, ∀ t, m.tets.get b.tet = some t →
    cur.tets.get (A (fid b)) = some ((t.setBoundary true).setDup true)
  undone : ∀ b ∈ B, (∀ b' ∈ done, b'.tet ≠ b.tet) → ∀ t, m.tets.get b.tet = some t →
    cur.tets.get b.tet = some (t.setBoundary true)
  only : ∀ k, (cur.tets.get k).isSome → (k ∉ E ∧ (m.tets.get k).isSome) ∨ (∃ b ∈ done, k = A (fid b)) ∨
    ∃ b ∈ B, k = b.tet ∧ ∀ b' ∈ done, b'.tet ≠ k
  inj : ∀ b ∈ done, ∀ b' ∈ done, A (fid b) = A (fid b') → fid b = fid b'
  fresh : ∀ b ∈ done, A (fid b) ∈ E ∨ m.tets.get (A (fid b)) = none
  rep : ∀ b ∈ done, ∃ b' ∈ done, b'.tet = b.tet ∧ A (fid b') = b.tet
  off : ∀ x, x ∉ done.map fid → A x = x.1

theorem Af_id {A : TId × Fin 4 → TId} (h : ∀ x, A x = x.1) (E : List TId) (t : Tet T) : patch E (Af A) t = t := by
  have : ∀ w, moved (Af A) w = w := by
    intro w; rw [moved_Af, nw, h]; rfl
  cases t
  simp only [patch, this, ite_self]

theorem FI.dupInv_nil (h : FI m v B E) {m2 : Mesh P V T} (h2 : Dropped m B E m2) : DupInv m m2 B E [] Prod.fst m2 where
  eq := rfl
  wf := h2.twf
  size := by simp
  out := fun k t hk ht => by rw [Af_id (fun _ => rfl), h2.out k hk, ht]
  inn := by simp
  undone := fun b hb _ t ht => h2.inn b hb t ht
  only := fun k hk => by
    rcases h2.only k hk with h' | ⟨b, hb, rfl⟩
    · exact .inl h'
    · exact .inr (.inr ⟨b, hb, rfl, by simp⟩)
  inj := by simp
  fresh := by simp
  rep := by simp
  off := fun _ _ => rfl

/-- Ids are left if something could be inserted. -/
theorem IdMap.WF.room {α : Type} {m : IdMap α} (hm : m.WF) {x : α} (h : (m.insert x).isSome) : m.size < idMax := by
  obtain ⟨⟨m', k⟩, h⟩ := Option.isSome_iff_exists.1 h
  obtain ⟨h1, -, -, -, h5⟩ := IdMap.insert_some hm h
  have := h1.free_length
  have := h1.le_max
  omega

theorem FI.dupInv_step (h : FI m v B E) {m2 : Mesh P V T} {done : List Walker} {A : TId × Fin 4 → TId} {cur : Mesh P V T}
    (hi : DupInv m m2 B E done A cur) {w : Walker} (hw : w ∈ B) (hd : ∀ b ∈ done, b ∈ B) (hf : fid w ∉ done.map fid)
    (room : m2.tets.size + done.length < idMax ∨ (cur.fiDup w).isSome) :
    ∃ A' cur', cur.fiDup w = some (cur', nw A' w) ∧ DupInv m m2 B E (done ++ [w]) A' cur' ∧
      ∀ b ∈ done, A' (fid b) = A (fid b) := by
  have ho := h.outer_mem hw
  obtain ⟨t, ht⟩ := h.get ho
  have hm := h.cons
  have ndup := (h.tidy.tets _ t ht).2
  by_cases hc : ∃ b ∈ done, b.tet = w.tet
  · -- a copy is needed
    obtain ⟨b, hb, hbw⟩ := hc
    obtain ⟨b', hb', e1, e2⟩ := hi.rep b hb
    have hg : cur.tets.get w.tet = some ((t.setBoundary true).setDup true) := by
      have := hi.inn b' hb' t (by rw [e1, hbw]; exact ht)
      rw [e2, hbw] at this
      exact this
    have hroom : cur.tets.size < idMax := by
      rcases room with room | room
      · exact lt_of_le_of_lt hi.size room
      · refine hi.wf.room (x := (t.setBoundary true).setDup true) ?_
        cases hins : cur.tets.insert ((t.setBoundary true).setDup true) with
        | some r => rfl
        | none =>
          have hdup : ((t.setBoundary true).setDup true).flags.needsDuplication = true := rfl
          simp [Mesh.fiDup, hg, hdup, Mesh.insertTet, hins] at room
    obtain ⟨ts, id, i1, i2, i3, i4, i5, i6⟩ := Mesh.insertTet_step hi.wf hroom
      ((t.setBoundary true).setDup true)
    have nid : ∀ k, (cur.tets.get k).isSome → k ≠ id := by
      rintro k hk rfl
      rw [i3] at hk; cases hk
    have nw1 : w.tet ≠ id := nid _ (by rw [hg]; rfl)
    -- the neighbour
    obtain ⟨u, u1, u2, u3⟩ := hm.adj.opp_opp ht (face w.edge)
    have hoE : (t.opp (face w.edge)).tet ∉ E := by
      have := outer_adj ho ht
      rwa [Tet.adj_tet] at this
    have hu := hi.out _ u hoE u1
    have nu : (t.opp (face w.edge)).tet ≠ id := nid _ (by rw [hu]; rfl)
    obtain ⟨m', k1, k2, k3⟩ := ({ cur with tets := ts } : Mesh P V T).modTet_step
      (k := (t.opp (face w.edge)).tet) (t := patch E (Af A) u)
      (fun u => u.setOpp (face (t.opp (face w.edge)).edge) ⟨id, (u.opp (face (t.opp (face w.edge)).edge)).edge⟩)
      (by show ts.get _ = _; rw [i5, if_neg nu, hu])
    have k3 : ∀ j, m'.tets.get j = if j = (t.opp (face w.edge)).tet then some ((patch E (Af A) u).setOpp (face (t.opp (face w.edge)).edge)
      ⟨id, ((patch E (Af A) u).opp (face (t.opp (face w.edge)).edge)).edge⟩) else ts.get j := k3
    set A' : TId × Fin 4 → TId := Function.update A (fid w) id with hA'
    have hA'o : ∀ x, x ≠ fid w → A' x = A x := fun x hx => Function.update_of_ne hx _ _
    have hA'w : A' (fid w) = id := Function.update_self _ _ _
    have hdo : ∀ b ∈ done, A' (fid b) = A (fid b) := fun b hb =>
      hA'o _ fun e => hf (e ▸ List.mem_map_of_mem hb)
    have hAw : A (fid w) = w.tet := hi.off _ hf
    have hother : ∀ k, k ≠ id → k ≠ (t.opp (face w.edge)).tet → m'.tets.get k = cur.tets.get k := by
      intro k h1 h2
      rw [k3, if_neg h2, i5, if_neg h1]
    have hlive : ∀ k, (m'.tets.get k).isSome → k = id ∨ (cur.tets.get k).isSome := by
      intro k hk
      by_cases h1 : k = id
      · exact .inl h1
      · right
        rw [k3] at hk
        split_ifs at hk with h2
        · rw [h2, hu]; rfl
        · rwa [i5, if_neg h1] at hk
    refine ⟨A', m', ?_, ?_, hdo⟩
    · simp only [Mesh.fiDup, hg, Option.bind_eq_bind, Option.bind_some]
      rw [if_pos (by rfl), i1]
      simp only [Option.bind_some, Mesh.toAdjAe]
      rw [i5, if_neg nw1, hg]
      simp only [Option.map_some, Option.bind_some]
      have : (((t.setBoundary true).setDup true).opp (face w.edge)) = t.opp (face w.edge) := rfl
      rw [this, k1]
      simp [nw, hA'w]
    · have hpat : ∀ k x, k ∉ E → m.tets.get k = some x → k ≠ (t.opp (face w.edge)).tet →
          patch E (Af A') x = patch E (Af A) x := by
        intro k x hk hx hne
        have : ∀ f, (x.opp f).tet ∈ E → moved (Af A') (x.opp f) = moved (Af A) (x.opp f) := by
          intro f hfE
          rw [moved_Af, moved_Af, nw, nw, hA'o]
          intro e
          obtain ⟨t', q1, q2, q3⟩ := hm.adj.opp_opp hx f
          have e1 : (x.opp f).tet = w.tet := congrArg Prod.fst e
          have e2 : face (x.opp f).edge = face w.edge := congrArg Prod.snd e
          rw [e1, ht] at q1
          cases q1
          rw [e2] at q2
          exact hne q2.symm
        simp only [patch, Tet.mk.injEq, true_and, and_true]
        funext f
        by_cases hfE : (x.opp f).tet ∈ E
        · rw [if_pos hfE, if_pos hfE, this f hfE]
        · rw [if_neg hfE, if_neg hfE]
      refine ⟨?_, ?_, ?_, ?_, ?_, ?_, ?_, ?_, ?_, ?_, ?_⟩
      · rw [k2.eq]; rw [hi.eq]
      · exact k2.wf i2
      · have : m'.tets.size = ts.size := k2.size
        have := hi.size
        rw [List.length_append]
        simp only [List.length_cons, List.length_nil]
        omega
      · intro k x hk hx
        by_cases hko : k = (t.opp (face w.edge)).tet
        · subst hko
          rw [u1] at hx
          cases hx
          rw [k3, if_pos rfl, Option.some.injEq]
          simp only [patch, Tet.setOpp, Tet.mk.injEq, true_and, and_true]
          funext f
          by_cases hff : f = face (t.opp (face w.edge)).edge
          · subst hff
            rw [Function.update_self, u2, if_pos ho.1, if_pos ho.1, moved_Af, moved_Af]
            simp only [nw]
            rw [show fid (u.opp (face (t.opp (face w.edge)).edge)) = fid w from Prod.ext u2 u3, hA'w]
          · rw [Function.update_of_ne hff]
            by_cases hfE : (u.opp f).tet ∈ E
            · rw [if_pos hfE, if_pos hfE, moved_Af, moved_Af, nw, nw, hA'o]
              intro e
              obtain ⟨t', q1, q2, q3⟩ := hm.adj.opp_opp u1 f
              have e1 : (u.opp f).tet = w.tet := congrArg Prod.fst e
              have e2 : face (u.opp f).edge = face w.edge := congrArg Prod.snd e
              rw [e1, ht] at q1
              cases q1
              rw [e2] at q3
              exact hff q3.symm
            · rw [if_neg hfE, if_neg hfE]
        · rw [hpat k x hk hx hko]
          have hkc := hi.out k x hk hx
          rw [hother k (nid _ (by rw [hkc]; rfl)) hko, hkc]
      · intro b hb x hx
        rcases List.mem_append.1 hb with hb | hb
        · rw [hdo b hb]
          have hkc := hi.inn b hb x hx
          rw [hother _ (nid _ (by rw [hkc]; rfl)), hkc]
          intro e
          rw [e, hu] at hkc
          rcases hi.fresh b hb with h1 | h1
          · exact hoE (e ▸ h1)
          · rw [e, u1] at h1; cases h1
        · cases List.mem_singleton.1 hb
          rw [hA'w, ht] at *
          cases hx
          rw [k3, if_neg nu.symm, i5, if_pos rfl]
      · intro b1 hb1 hno x hx
        have hkc := hi.undone b1 hb1 (fun b' hb' => hno b' (List.mem_append_left _ hb')) x hx
        rw [hother _ (nid _ (by rw [hkc]; rfl)), hkc]
        exact fun e => hoE (e ▸ (h.outer_mem hb1).1)
      · intro k hk
        rcases hlive k hk with rfl | hk'
        · exact .inr (.inl ⟨w, by simp, hA'w.symm⟩)
        · rcases hi.only k hk' with h1 | ⟨b1, h1, h2⟩ | ⟨b1, h1, h2, h3⟩
          · exact .inl h1
          · exact .inr (.inl ⟨b1, by simp [h1], by rw [hdo b1 h1, h2]⟩)
          · refine .inr (.inr ⟨b1, h1, h2, fun b2 hb2 => ?_⟩)
            rcases List.mem_append.1 hb2 with hb2 | hb2
            · exact h3 b2 hb2
            · cases List.mem_singleton.1 hb2
              exact fun e => h3 b hb (hbw.trans e)
      · have hidn : ∀ b1 ∈ done, A (fid b1) ≠ id := by
          intro b1 hb1
          obtain ⟨x, hx⟩ := h.get (h.outer_mem (hd b1 hb1))
          exact nid _ (by rw [hi.inn b1 hb1 x hx]; rfl)
        intro b1 hb1 b2 hb2 e
        rcases List.mem_append.1 hb1 with hb1 | hb1 <;> rcases List.mem_append.1 hb2 with hb2 | hb2
        · rw [hdo b1 hb1, hdo b2 hb2] at e
          exact hi.inj b1 hb1 b2 hb2 e
        · cases List.mem_singleton.1 hb2
          rw [hdo b1 hb1, hA'w] at e
          exact absurd e (hidn b1 hb1)
        · cases List.mem_singleton.1 hb1
          rw [hdo b2 hb2, hA'w] at e
          exact absurd e.symm (hidn b2 hb2)
        · cases List.mem_singleton.1 hb1
          cases List.mem_singleton.1 hb2
          rfl
      · intro b1 hb1
        rcases List.mem_append.1 hb1 with hb1 | hb1
        · rw [hdo b1 hb1]; exact hi.fresh b1 hb1
        · cases List.mem_singleton.1 hb1
          rw [hA'w]
          by_cases hidE : id ∈ E
          · exact .inl hidE
          · right
            cases hx : m.tets.get id with
            | none => rfl
            | some x =>
              rw [hi.out id x hidE hx] at i3
              cases i3
      · intro b1 hb1
        rcases List.mem_append.1 hb1 with hb1 | hb1
        · obtain ⟨b2, h1, h2, h3⟩ := hi.rep b1 hb1
          exact ⟨b2, by simp [h1], h2, by rw [hdo b2 h1, h3]⟩
        · cases List.mem_singleton.1 hb1
          exact ⟨b', by simp [hb'], e1.trans hbw, by rw [hdo b' hb', e2, hbw]⟩
      · intro x hx
        rw [List.map_append, List.mem_append, not_or] at hx
        rw [hA'o x (by simpa using hx.2)]
        exact hi.off x hx.1
  · -- the old tet is used
    have hc' : ∀ b ∈ done, b.tet ≠ w.tet := fun b hb e => hc ⟨b, hb, e⟩
    have hg := hi.undone w hw hc' t ht
    obtain ⟨m', k1, k2, k3⟩ := cur.modTet_step (·.setDup true) hg
    have hAw : A (fid w) = w.tet := hi.off _ hf
    have hother : ∀ k, k ≠ w.tet → m'.tets.get k = cur.tets.get k := fun k hk => by rw [k3, if_neg hk]
    have hne : ∀ b ∈ done, A (fid b) ≠ w.tet := by
      intro b hb e
      obtain ⟨x, hx⟩ := h.get (h.outer_mem (hd b hb))
      have h1 := hi.inn b hb x hx
      rw [e, hg] at h1
      have h2 := congrArg (fun t => t.flags.needsDuplication) (Option.some.inj h1)
      simp [Tet.setDup, Tet.setBoundary, ndup] at h2
    refine ⟨A, m', ?_, ?_, fun _ _ => rfl⟩
    · simp only [Mesh.fiDup, hg, Option.bind_eq_bind, Option.bind_some]
      rw [if_neg (by simp [Tet.setBoundary, ndup]), k1]
      simp only [Option.bind_some, nw, hAw]
      rfl
    · refine ⟨?_, k2.wf hi.wf, ?_, ?_, ?_, ?_, ?_, ?_, ?_, ?_, ?_⟩
      · rw [k2.eq]; rw [hi.eq]
      · have := hi.size
        rw [k2.size, List.length_append]
        omega
      · intro k x hk hx
        rw [hother k (fun e => hk (e ▸ ho.1))]
        exact hi.out k x hk hx
      · intro b hb x hx
        rcases List.mem_append.1 hb with hb | hb
        · rw [hother _ (hne b hb)]
          exact hi.inn b hb x hx
        · cases List.mem_singleton.1 hb
          rw [ht] at hx
          cases hx
          rw [hAw, k3, if_pos rfl]
      · intro b1 hb1 hno x hx
        rw [hother _ (hno w (by simp)).symm]
        exact hi.undone b1 hb1 (fun b' hb' => hno b' (List.mem_append_left _ hb')) x hx
      · intro k hk
        by_cases hkw : k = w.tet
        · exact .inr (.inl ⟨w, by simp, by rw [hAw, hkw]⟩)
        · rw [hother k hkw] at hk
          rcases hi.only k hk with h1 | ⟨b1, h1, h2⟩ | ⟨b1, h1, h2, h3⟩
          · exact .inl h1
          · exact .inr (.inl ⟨b1, by simp [h1], h2⟩)
          · refine .inr (.inr ⟨b1, h1, h2, fun b2 hb2 => ?_⟩)
            rcases List.mem_append.1 hb2 with hb2 | hb2
            · exact h3 b2 hb2
            · cases List.mem_singleton.1 hb2
              exact fun e => hkw e.symm
      · intro b1 hb1 b2 hb2 e
        rcases List.mem_append.1 hb1 with hb1 | hb1 <;> rcases List.mem_append.1 hb2 with hb2 | hb2
        · exact hi.inj b1 hb1 b2 hb2 e
        · cases List.mem_singleton.1 hb2
          rw [hAw] at e
          exact absurd e (hne b1 hb1)
        · cases List.mem_singleton.1 hb1
          rw [hAw] at e
          exact absurd e.symm (hne b2 hb2)
        · cases List.mem_singleton.1 hb1
          cases List.mem_singleton.1 hb2
          rfl
      · intro b1 hb1
        rcases List.mem_append.1 hb1 with hb1 | hb1
        · exact hi.fresh b1 hb1
        · cases List.mem_singleton.1 hb1
          rw [hAw]
          exact .inl ho.1
      · intro b1 hb1
        rcases List.mem_append.1 hb1 with hb1 | hb1
        · obtain ⟨b2, h1, h2, h3⟩ := hi.rep b1 hb1
          exact ⟨b2, by simp [h1], h2, h3⟩
        · cases List.mem_singleton.1 hb1
          exact ⟨w, by simp, rfl, hAw⟩
      · intro x hx
        rw [List.map_append, List.mem_append, not_or] at hx
        exact hi.off x hx.1

theorem FI.dups (h : FI m v B E) {m2 : Mesh P V T} (rest : List Walker) : ∀ {done : List Walker} {A : TId × Fin 4 → TId} {cur : Mesh P V T},
    DupInv m m2 B E done A cur → B = done ++ rest → m2.tets.size + B.length ≤ idMax ∨ (Mesh.fiDups rest cur).isSome →
    ∃ A' cur', Mesh.fiDups rest cur = some (cur', rest.map (nw A')) ∧ DupInv m m2 B E B A' cur' ∧
      ∀ b ∈ done, A' (fid b) = A (fid b) := by
  induction rest with
  | nil =>
    intro done A cur hi hB _
    rw [List.append_nil] at hB
    exact ⟨A, cur, rfl, hB ▸ hi, fun _ _ => rfl⟩
  | cons w rest ih =>
    intro done A cur hi hB room
    have hnd := h.fids
    obtain ⟨A1, c1, s1, s2, s3⟩ := h.dupInv_step hi (w := w) (by rw [hB]; simp) (fun b hb => by rw [hB]; simp [hb])
      (by
        rw [hB, List.map_append, List.map_cons, List.nodup_append] at hnd
        exact fun hf => hnd.2.2 _ hf _ List.mem_cons_self rfl)
      (room.imp (fun room => by rw [hB] at room; simp at room; omega) fun room => by
        cases hd : cur.fiDup w with
        | some r => rfl
        | none => simp [Mesh.fiDups, hd] at room)
    obtain ⟨A2, c2, r1, r2, r3⟩ := ih s2 (by rw [hB]; simp) (room.imp id fun room => by
      cases hd : Mesh.fiDups rest c1 with
      | some r => rfl
      | none => simp [Mesh.fiDups, s1, hd] at room)
    refine ⟨A2, c2, ?_, r2, fun b hb => by rw [r3 b (by simp [hb]), s3 b hb]⟩
    simp only [Mesh.fiDups, s1, Option.bind_eq_bind, Option.bind_some, r1]
    have : nw A2 w = nw A1 w := by rw [nw, nw, r3 w (by simp)]
    simp [this]

/-- After duplicating. -/
structure Dupped (m : Mesh P V T) (B : List Walker) (E : List TId) (A : TId × Fin 4 → TId) (m2 m3 : Mesh P V T) : Prop where
  eq : m3 = { m2 with tets := m3.tets }
  wf : m3.tets.WF
  out : ∀ k t, k ∉ E → m.tets.get k = some t → m3.tets.get k = some (patch E (Af A) t)
  inn : ∀ w, Outer m E w → ∀ t, m.tets.get w.tet = some t →
    m3.tets.get (A (fid w)) = some ((t.setBoundary true).setDup true)
  only : ∀ k, (m3.tets.get k).isSome → (k ∉ E ∧ (m.tets.get k).isSome) ∨ (∃ w, Outer m E w ∧ k = A (fid w))
  inj : ∀ w w', Outer m E w → Outer m E w' → A (fid w) = A (fid w') → fid w = fid w'
  fresh : ∀ w, Outer m E w → A (fid w) ∈ E ∨ m.tets.get (A (fid w)) = none

theorem FI.dup (h : FI m v B E) {m2 : Mesh P V T} (h2 : Dropped m B E m2)
    (room : m.tets.size + B.length ≤ idMax ∨ (Mesh.fiDups B m2).isSome) :
    ∃ A m3, Mesh.fiDups B m2 = some (m3, B.map (nw A)) ∧ Dupped m B E A m2 m3 := by
  obtain ⟨A, m3, h3, h4, -⟩ := h.dups B (h.dupInv_nil h2) rfl (room.imp (fun _ => by have := h2.tsize; omega) id)
  refine ⟨A, m3, h3, h4.eq, h4.wf, h4.out, ?_, ?_, ?_, ?_⟩
  · intro w hw t ht
    obtain ⟨b, hb, e⟩ := h.base hw
    have e1 : w.tet = b.tet := congrArg Prod.fst e
    rw [e]
    exact h4.inn b hb t (e1 ▸ ht)
  · intro k hk
    rcases h4.only k hk with h1 | ⟨b, h1, h5⟩ | ⟨b, h1, h5, h6⟩
    · exact .inl h1
    · exact .inr ⟨b, h.outer_mem h1, h5⟩
    · exact absurd h5.symm (h6 b h1)
  · intro w w' hw hw' e
    obtain ⟨b, hb, e1⟩ := h.base hw
    obtain ⟨b', hb', e2⟩ := h.base hw'
    rw [e1, e2] at e ⊢
    exact h4.inj b hb b' hb' e
  · intro w hw
    obtain ⟨b, hb, e1⟩ := h.base hw
    rw [e1]
    exact h4.fresh b hb

end
end Tet
