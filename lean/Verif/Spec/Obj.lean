import Verif.Model.Obj
import Verif.Spec.Plc

/-!
# What a loaded OBJ file should contain
-/

namespace Tet.PlcSpec
open Plc

/-- All polygons of a file, in order. -/
def polys {X : Type} (data : ObjData X) : List (List Nat) := data.objects.flatten.flatten

/-- The edges a polygon asks for: a polygon with two corners is one edge, in its direction. -/
def polyEdges : List Nat → List (Nat × Nat)
  | [a, b] => [(a, b)]
  | l => cyc l

end Tet.PlcSpec
