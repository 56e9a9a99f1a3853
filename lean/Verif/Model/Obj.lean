import Verif.Model.Plc

/-!
# Loading a `Plc` from an OBJ file

Model of `from_obj` in /repo/src/plc.rs.  Parsing the file is the business of the `obj` crate and is
not modelled; the model starts from its `ObjData`.
-/

namespace Tet.Plc
variable {P Q V E F X : Type}

/-- The fields of `obj::ObjData` that `from_obj` uses: the positions, and the polygons of the groups
of the objects.  A polygon is the list of its position indices (the first component of each vertex
of an `obj::SimplePolygon`; the others are not used). -/
structure ObjData (X : Type) where
  position : List X
  objects : List (List (List (List Nat)))

/-- `as u32`, src/plc.rs:720, 725 -/
def asU32 (i : Nat) : Nat := i % 2 ^ 32

/-- One polygon, src/plc.rs:716-728 -/
def objPoly (g : Geom P Q) (defaultEdge : E) (defaultFace : F) (p : Plc P Q V E F) (poly : List Nat) :
    Option (Plc P Q V E F) := do
  if poly.length = 2 then
    let (p, _) ← p.addEdge (asU32 (← poly[0]?), asU32 (← poly[1]?)) defaultEdge
    return p
  else
    let (p, _) ← addFace g p [poly.map asU32] defaultFace
    return p

/-- `Plc::from_obj`, src/plc.rs:702-734; `point` turns the coordinates into `f64` (line 711). -/
def fromObj (g : Geom P Q) (point : X → P) (defaultVertex : V) (defaultEdge : E) (defaultFace : F)
    (data : ObjData X) : Option (Plc P Q V E F) := do
  let p ← data.position.foldlM
    (fun p x => do let (p, _) ← p.addVertex (point x) defaultVertex; return p) (new defaultEdge)
  data.objects.foldlM (fun p object => object.foldlM (fun p group =>
    group.foldlM (objPoly g defaultEdge defaultFace) p) p) p

end Tet.Plc
