import Verif.Proofs.TriSteiner

/-!
# Recovering a triangle with Steiner points: the rounds of the loop
-/

namespace Tet
open Spec Vec4

variable {K V T C : Type} [Field K] [LinearOrder K] [IsStrictOrderedRing K] {m m1 m2 m3 : Mesh (Pt K) V T}

theorem tri_of_parts {P : Type} {m : Mesh P V T} {w : Walker} {a b c : VId} (h : m.edge w = some (a, b)) (h' : m.third w = some c) : m.tri w = some (a, b, c) := by
  obtain ⟨c', d, h1⟩ := edge_tet4 h
  have h2 := (tet4_parts h1).2.2.2
  obtain ⟨t, h3, h4⟩ := Mesh.tri_iff.1 h2
  simp only [Tet.tri, Prod.mk.injEq] at h4
  simp only [Mesh.third, h3, Option.map_some, Option.some.injEq] at h'
  rw [h2, ← h', h4.2.2]

variable {env : SteinerEnv K C} {xy : Pt K → K × K} {p0 p1 p2 X Y Z : Pt K} {x0 : V} {base : List VId} {L : List (VId × VId)}
  {st : TriSteiner K V T C} {ps : List V3} {tri : V3}

theorem cdtRegion_settled (env : SteinerEnv K C) (v0 v1 : VId) (cdt : C) (toCdt : VId → Option Nat) (fromCdt : Nat → Option VId) :
    ∃ r, Settles (fun fuel => cdtRegion env fuel v0 v1 cdt toCdt fromCdt) r ∧ ∀ tris, r = some tris → ∃ fs : List Nat, (fs.mapM fun f => do
      let (a, b, c) ← env.ops.triangle cdt f
      return (← fromCdt a, ← fromCdt b, ← fromCdt c)) = some tris := by
  cases h0 : toCdt v0 with
  | none => exact ⟨none, ⟨0, fun n _ => by simp [cdtRegion, h0]⟩, by simp⟩
  | some i =>
    cases h1 : toCdt v1 with
    | none => exact ⟨none, ⟨0, fun n _ => by simp [cdtRegion, h0, h1]⟩, by simp⟩
    | some j =>
      cases h2 : env.ops.edgeBetween cdt i j with
      | none => exact ⟨none, ⟨0, fun n _ => by simp [cdtRegion, h0, h1, h2]⟩, by simp⟩
      | some e =>
        obtain ⟨r, N, hN⟩ := regionLoop_settled env.ops cdt [e] []
        cases r with
        | none => exact ⟨none, ⟨N, fun n hn => by simp only [cdtRegion, h0, h1, h2, hN n hn, Option.bind_eq_bind, Option.bind_some, Option.bind_none]⟩, by simp⟩
        | some R =>
          refine ⟨_, ⟨N, fun n hn => by simp only [cdtRegion, h0, h1, h2, hN n hn, Option.bind_eq_bind, Option.bind_some]⟩, fun tris h => ⟨env.orderF R, h⟩⟩

/-- A round that locks a piece. -/
theorem lock_gives (hc : IsCdt env.ops) (hf : Flat xy p0 p1 p2 X Y Z) (hF : Framed m3 xy p0 p1 p2 base L)
    (hi : LoopInv env.ops xy p0 p1 p2 x0 m3 base L st ps) {e : VId × VId} (he : e ∈ st.edges) :
    ∃ r, Settles (fun fuel => st.lock env fuel e) r ∧ ∀ st', r = some st' → ∃ s, LoopInv env.ops xy p0 p1 p2 x0 m3 base L st' (s :: ps) := by
  obtain ⟨a, b⟩ := e
  obtain ⟨-, hav, hbv⟩ := hi.edge_ok hF he
  simp only at hav hbv
  obtain ⟨r, ⟨N, hN⟩, hr⟩ := walkerFromEdge_does hi.sound.consistent (a, b)
  match r, hr with
  | none, _ => exact ⟨none, ⟨N, fun n hn => by simp [TriSteiner.lock, hN n hn]⟩, by simp⟩
  | some none, _ => exact ⟨none, ⟨N, fun n hn => by simp [TriSteiner.lock, hN n hn]⟩, by simp⟩
  | some (some w), hw =>
    change st.mesh.edge w = some (a, b) at hw
    obtain ⟨l, ⟨N', hN'⟩, -, -, hl⟩ := ring_does hi.sound.consistent hw
    refine ⟨_, ⟨max N N', fun n hn => by
      simp only [TriSteiner.lock, hN n (by omega), hN' n (by omega), Option.bind_eq_bind, Option.bind_some]; rfl⟩, fun st' h => ?_⟩
    obtain ⟨o, h1, h⟩ := Option.bind_eq_some_iff.1 h
    cases o with
    | none => cases h
    | some w' =>
    simp only [Option.bind_some] at h
    obtain ⟨m', h2, h⟩ := Option.bind_eq_some_iff.1 h
    obtain ⟨v2, h3, h⟩ := Option.bind_eq_some_iff.1 h
    obtain ⟨s', h4, h⟩ := Option.bind_eq_some_iff.1 h
    cases h
    obtain ⟨k1, k2⟩ := findTest_some h1
    simp only [TriSteiner.isPiece, Option.bind_eq_bind] at k2
    obtain ⟨c, k3, k2⟩ := Option.bind_eq_some_iff.1 k2
    split_ifs at k2 with hcv
    · obtain ⟨pa, ia, ha, -, ta, va⟩ := hi.place a hav
      obtain ⟨pb, ib, hb, -, tb, vb⟩ := hi.place b hbv
      obtain ⟨pc, ic, hcc, -, tc, vc⟩ := hi.place c hcv
      simp only [ta, tb, tc, va, vb, vc, Option.bind_some, Option.pure_def, Option.some.injEq, decide_eq_true_eq] at k2
      have hwt := tri_of_parts ((hl w').1 k1) k3
      obtain ⟨m'', e1, -, -, -, e5, -⟩ := lockPiece_ok hi.sound hwt
      rw [h2] at e1
      cases e1
      obtain rfl : v2 = c := by
        obtain ⟨t, q1, q2⟩ := Mesh.tri_iff.1 ((e5 w').trans hwt)
        simp only [Tet.tri, Prod.mk.injEq] at q2
        simp only [Mesh.third, q1, Option.map_some, Option.some.injEq] at h3
        rw [← h3, q2.2.2]
      exact ⟨_, (hi.lock hc hf hF he hwt ha hb hcc hcv k2 h2 h4).2⟩
    · simp at k2

/-- The loop. -/
theorem loop_gives (hc : IsCdt env.ops) (ho : ∀ l, (env.orderE l).Perm l) (hf : Flat xy p0 p1 p2 X Y Z) (hF : Framed m3 xy p0 p1 p2 base L)
    (hx0 : ∃ y, m3.vertices.get tri.1 = some y ∧ y.value = x0) :
    ∀ (rounds : Nat) (st : TriSteiner K V T C) (ps : List V3), LoopInv env.ops xy p0 p1 p2 x0 m3 base L st ps →
      GivesOnly (fun fuel => st.loop env tri xy fuel rounds) fun _ st' => ∃ ps', LoopInv env.ops xy p0 p1 p2 x0 m3 base L st' ps' ∧ st'.edges = []
  | 0, st, ps, _ => ⟨0, fun _ _ x hx => by simp [TriSteiner.loop] at hx⟩
  | rounds + 1, st, ps, hi => by
    cases hE : env.orderE st.edges with
    | nil =>
      refine ⟨0, fun n _ x hx => ?_⟩
      simp only [TriSteiner.loop, hE, Option.some.injEq] at hx
      subst hx
      have := ho st.edges
      rw [hE] at this
      exact ⟨ps, hi, List.Perm.eq_nil this.symm⟩
    | cons e rest =>
      have he : e ∈ st.edges := (ho st.edges).mem_iff.1 (by rw [hE]; simp)
      obtain ⟨hlock, hav, hbv⟩ := hi.edge_ok hF he
      obtain ⟨pa, ia, ha, -⟩ := hi.place e.1 hav
      refine GivesOnly.congr (f := fun fuel => (cdtRegion env fuel e.1 e.2 st.cdt st.toCdt st.fromCdt).bind fun tris =>
        (st.mesh.trisPoints fuel tris e).bind fun l => match l with
          | inter :: _ => (st.split env tri xy fuel inter).bind (TriSteiner.loop env tri xy fuel rounds)
          | [] => (st.lock env fuel e).bind (TriSteiner.loop env tri xy fuel rounds)) ?_ ?_
      · obtain ⟨r, hr, hreg⟩ := cdtRegion_settled env e.1 e.2 st.cdt st.toCdt st.fromCdt
        refine GivesOnly.bind hr fun tris htris => ?_
        obtain ⟨fs, hfs⟩ := hreg tris htris
        have hT := hi.region hc hfs
        have hsol : SolidTris st.mesh tris := fun t ht => ⟨(hT t ht).1, fun v hv => by
          obtain ⟨p, h1, -⟩ := (hT t ht).2 v hv
          exact ⟨p, h1⟩⟩
        obtain ⟨l, hl, hin⟩ := trisPoints_in hi.sound hsol (hasEdge_of_locked hlock) ha.1
        refine GivesOnly.bind hl fun l' hl' => ?_
        cases hl'
        cases l with
        | nil =>
          obtain ⟨r, hr, hst⟩ := lock_gives hc hf hF hi he
          refine GivesOnly.bind hr fun st' hs' => ?_
          obtain ⟨s, hi'⟩ := hst st' hs'
          exact (loop_gives hc ho hf hF hx0 rounds st' _ hi').mono fun _ _ h _ _ _ => h
        | cons x xs =>
          obtain ⟨hxe, t, ht, q0, q1, q2, a0, a1, a2, hq⟩ := hin x (by simp)
          have hcl : InClosedTri p0 p1 p2 x.2 := by
            obtain ⟨r0, b0, c0⟩ := (hT t ht).2 t.1 (by simp)
            obtain ⟨r1, b1, c1⟩ := (hT t ht).2 t.2.1 (by simp)
            obtain ⟨r2, b2, c2⟩ := (hT t ht).2 t.2.2 (by simp)
            rw [at_same b0 a0] at c0
            rw [at_same b1 a1] at c1
            rw [at_same b2 a2] at c2
            exact c0.trans c1 c2 hq
          obtain ⟨y, hy, hyv⟩ := hi.grown.value hx0
          obtain ⟨r, hr, hsp⟩ := insertTriSteiner_does hi.sound hi.full (e := x.1) x.2 hy hxe
          refine GivesOnly.congr (f := fun fuel => (st.mesh.insertTriSteiner fuel tri.1 x.1 x.2).bind fun q =>
            TriSteiner.loop env tri xy fuel rounds { st with
              mesh := q.1
              cdt := (env.ops.insert st.cdt (xy x.2)).1
              toCdt := Function.update st.toCdt q.2 (some (env.ops.insert st.cdt (xy x.2)).2)
              fromCdt := Function.update st.fromCdt (env.ops.insert st.cdt (xy x.2)).2 (some q.2)
              inside := st.inside ++ [q.2]
              vertices := st.vertices ++ [q.2] }) ?_ ?_
          · refine GivesOnly.bind hr fun q hq' => ?_
            have := (hsp q.1 q.2 hq').1
            rw [hyv] at this
            exact (loop_gives hc ho hf hF hx0 rounds _ _ (hi.split hc hcl this)).mono fun _ _ h _ _ _ => h
          · intro n
            simp only [TriSteiner.split, Option.bind_eq_bind, Option.pure_def, Option.bind_assoc]
            rfl
      · intro n
        simp only [TriSteiner.loop, hE, Option.bind_eq_bind]
        rfl

end Tet
