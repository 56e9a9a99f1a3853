import Verif.Model.Plc
import Verif.Proofs.IdMap
import Verif.Proofs.Linked

/-!
# Id maps without holes, and the linked lists of a `Plc`
-/

namespace Tet
namespace IdMap
variable {A : Type}

/-- The next id (`next_push_index`). -/
def top (m : IdMap A) : Nat := m.map.slots.length

/-- No element was ever removed. -/
structure Full (m : IdMap A) : Prop where
  free : m.free = []
  live : ∀ i < m.top, (m.get i).isSome
  le_max : m.top ≤ idMax

theorem Full.empty : (empty : IdMap A).Full :=
  ⟨rfl, by intro i hi; simp [top, IdMap.empty, StableVec.empty] at hi,
    by simp [top, IdMap.empty, StableVec.empty]⟩

theorem lt_top {m : IdMap A} {i : Nat} {x : A} (h : m.get i = some x) : i < m.top := lt_of_get h

theorem lt_top_of_isSome {m : IdMap A} {i : Nat} (h : (m.get i).isSome) : i < m.top := by
  obtain ⟨x, hx⟩ := Option.isSome_iff_exists.1 h
  exact lt_top hx

theorem get_top (m : IdMap A) : m.get m.top = none := by
  cases h : m.get m.top with
  | none => rfl
  | some x => exact absurd (lt_top h) (lt_irrefl _)

theorem Full.exists {m : IdMap A} (h : m.Full) {i : Nat} (hi : i < m.top) : ∃ x, m.get i = some x :=
  Option.isSome_iff_exists.1 (h.live i hi)

theorem Full.get_max {m : IdMap A} (h : m.Full) : m.get idMax = none := by
  cases hx : m.get idMax with
  | none => rfl
  | some x => exact absurd (lt_top hx) (by have := h.le_max; omega)

theorem Full.ne_max {m : IdMap A} (h : m.Full) {i : Nat} {x : A} (hx : m.get i = some x) :
    i ≠ idMax := by
  rintro rfl
  rw [h.get_max] at hx
  cases hx

theorem Full.insert_some {m m' : IdMap A} {v : A} {k : Nat} (h : m.Full)
    (hi : m.insert v = some (m', k)) :
    k = m.top ∧ m'.Full ∧ m'.top = m.top + 1 ∧ m.top < idMax ∧
      ∀ j, m'.get j = if j = m.top then some v else m.get j := by
  unfold insert at hi
  split at hi
  · cases hi
  rename_i hc
  have hlt : m.top < idMax := by
    by_contra hge
    exact hc ⟨h.free, by show idMax ≤ m.top; omega⟩
  simp only [insertRaw, h.free, List.getLast?_nil, StableVec.push] at hi
  have hmod : m.map.slots.length % 2 ^ 32 = m.map.slots.length := Nat.mod_eq_of_lt (by
    have : m.map.slots.length < idMax := hlt
    unfold idMax at this; omega)
  simp only [Option.some.injEq, Prod.mk.injEq] at hi
  obtain ⟨rfl, hk⟩ := hi
  have hget : ∀ j, (⟨⟨m.map.slots ++ [some v], max m.map.cap (m.map.slots.length + 1)⟩, []⟩ : IdMap A).get j
      = if j = m.top then some v else m.get j := by
    intro j
    rw [get_def]
    show (m.map.slots ++ [some v])[j]?.join = _
    by_cases hj : j < m.map.slots.length
    · rw [List.getElem?_append_left hj, if_neg (by show j ≠ m.map.slots.length; omega), get_def]
    · by_cases hj' : j = m.map.slots.length
      · subst hj'
        simp [top]
      · rw [List.getElem?_eq_none (by simp; omega), if_neg (show ¬j = m.top from hj'), get_def,
          List.getElem?_eq_none (by omega)]
  have htop : (⟨⟨m.map.slots ++ [some v], max m.map.cap (m.map.slots.length + 1)⟩, []⟩ : IdMap A).top
      = m.top + 1 := by simp [top]
  refine ⟨by rw [← hk]; exact hmod, ⟨rfl, ?_, by rw [htop]; omega⟩, htop, hlt, hget⟩
  intro i hi
  rw [htop] at hi
  rw [hget]
  by_cases hie : i = m.top
  · simp [hie]
  · rw [if_neg hie]; exact h.live i (by omega)

theorem Full.insert {m : IdMap A} (h : m.Full) (hr : m.top < idMax) (v : A) :
    ∃ m', m.insert v = some (m', m.top) := by
  cases hi : m.insert v with
  | some r =>
    obtain ⟨m', k⟩ := r
    obtain ⟨rfl, -⟩ := h.insert_some hi
    exact ⟨m', rfl⟩
  | none =>
    unfold IdMap.insert at hi
    split at hi
    · rename_i hc
      have : idMax ≤ m.top := hc.2
      omega
    · simp [insertRaw, h.free, StableVec.push] at hi

theorem top_modify (m : IdMap A) (k : Nat) (f : A → A) : (m.modify k f).top = m.top := by
  simp [top, modify]

theorem Full.modify {m : IdMap A} (h : m.Full) (k : Nat) (f : A → A) : (m.modify k f).Full := by
  refine ⟨h.free, ?_, by rw [top_modify]; exact h.le_max⟩
  intro i hi
  rw [top_modify] at hi
  rw [get_modify]
  split <;> simp [h.live i hi]

theorem upd_eq {m : IdMap A} {k : Nat} (f : A → A) (h : (m.get k).isSome) :
    m.upd k f = some (m.modify k f) := by
  rw [upd, if_pos h]

theorem upd_some {m m' : IdMap A} {k : Nat} {f : A → A} (h : m.upd k f = some m') :
    (m.get k).isSome ∧ m' = m.modify k f := by
  unfold upd at h
  split at h
  · rename_i hs
    exact ⟨hs, (Option.some.inj h).symm⟩
  · cases h

theorem isSome_modify (m : IdMap A) (k : Nat) (f : A → A) (i : Nat) :
    ((m.modify k f).get i).isSome = (m.get i).isSome := by
  rw [get_modify]; split <;> simp

end IdMap

namespace Plc
open Linked
variable {P Q V E F : Type}

/-- The edges leaving the vertices. -/
def layerOut (vl : IdMap (Vertex P V)) (el : IdMap (Edge E)) : Layer where
  n := el.top
  key i := (el.get i).map (·.vertices.1)
  next i := (el.get i).map (·.nextOut)
  prev i := (el.get i).map (·.prevOut)
  first v := (vl.get v).map (·.edgeOut)

/-- The edges entering the vertices. -/
def layerIn (vl : IdMap (Vertex P V)) (el : IdMap (Edge E)) : Layer where
  n := el.top
  key i := (el.get i).map (·.vertices.2)
  next i := (el.get i).map (·.nextIn)
  prev i := (el.get i).map (·.prevIn)
  first v := (vl.get v).map (·.edgeIn)

/-- The face edges on the edges. -/
def layerOn (el : IdMap (Edge E)) (fl : IdMap FaceEdge) : Layer where
  n := fl.top
  key i := (fl.get i).map (·.edge)
  next i := (fl.get i).map (·.nextOn)
  prev i := (fl.get i).map (·.prevOn)
  first e := (el.get e).map (·.faceEdge)

/-- The face edge a ring starts with, if it is not an isolated vertex. -/
def FaceRing.fe (r : FaceRing) : Option Nat :=
  match r.element with
  | .faceEdge fe => some fe
  | .vertex _ => none

/-- The face edges of the rings. -/
def layerRing (fl : IdMap FaceEdge) (rl : IdMap FaceRing) : Layer where
  n := fl.top
  key i := (fl.get i).map (·.ring)
  next i := (fl.get i).map (·.next)
  prev i := (fl.get i).map (·.prev)
  first r := (rl.get r).bind FaceRing.fe

/-- The rings of the faces. -/
def layerFace (rl : IdMap FaceRing) (fs : IdMap (Face Q F)) : Layer where
  n := rl.top
  key i := (rl.get i).map (·.face)
  next i := (rl.get i).map (·.next)
  prev i := (rl.get i).map (·.prev)
  first f := (fs.get f).map (·.ring)

/-- A field that the modification does not touch. -/
theorem map_modify {A B : Type} (m : IdMap A) (k : Nat) (f : A → A) (g : A → B) (h : ∀ x, g (f x) = g x)
    (i : Nat) : ((m.modify k f).get i).map g = (m.get i).map g := by
  rw [IdMap.get_modify]
  split
  · rw [Option.map_map]; congr 1; funext x; exact h x
  · rfl

/-- A field that the modification sets. -/
theorem map_modify_set {A B : Type} (m : IdMap A) (k : Nat) (f : A → A) (g : A → B) (b : B)
    (h : ∀ x, g (f x) = b) (hk : (m.get k).isSome) :
    (fun i => ((m.modify k f).get i).map g) = Function.update (fun i => (m.get i).map g) k (some b) := by
  funext i
  rw [IdMap.get_modify]
  by_cases hi : i = k
  · subst hi
    obtain ⟨x, hx⟩ := Option.isSome_iff_exists.1 hk
    simp [hx, h]
  · simp [hi]

theorem map_modify' {A B : Type} (m : IdMap A) (k : Nat) (f : A → A) (g : A → B) (h : ∀ x, g (f x) = g x) :
    (fun i => ((m.modify k f).get i).map g) = fun i => (m.get i).map g :=
  funext (map_modify m k f g h)

end Plc
end Tet
