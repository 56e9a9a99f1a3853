import Verif.Model.Mesh

/-!
# What a local operation leaves alone
-/

namespace Tet.Spec
variable {P V T : Type}

/-- The meshes have the same vertex ids, with the same positions, values and flags, and the
same centre and tracking switch. -/
def SameVertices (m m' : Mesh P V T) : Prop :=
  (∀ v, (m'.vertices.get v).map (fun x => (x.position, x.value, x.flags)) =
    (m.vertices.get v).map fun x => (x.position, x.value, x.flags)) ∧
  m'.center = m.center ∧ m'.trackTriMap = m.trackTriMap ∧ m'.defaultTet = m.defaultTet

/-- Every tet of `m`, except the ids in `dead`, is still in `m'` with the same value, and with
the same vertices in the same order if its id is not in `region`. -/
def KeepsTets (m m' : Mesh P V T) (region dead : List TId) : Prop :=
  ∀ k t, m.tets.get k = some t → k ∉ dead → ∃ t', m'.tets.get k = some t' ∧ t'.value = t.value ∧
    (k ∉ region → t'.vertices = t.vertices)

end Tet.Spec
