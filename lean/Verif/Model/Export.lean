import Verif.Model.Mesh

/-!
# Model of spatial sorting (src/util.rs:1-71) and of the debug export (src/tet.rs:3487-3535)
-/

namespace Tet

/-- `hilbert_sort`, src/util.rs:5-71.  `key points` is the place on the Hilbert curve, which depends
on the range of all the points (src/util.rs:18-67, with the crate `hilbert`); `sort_by_cached_key` is
a stable sort.  The ids are `i as u32`.  No points: `unwrap` fails. -/
def hilbertSort {P V K : Type} (key : List P → P → K) (le : K → K → Bool) (points : List (P × V)) :
    Option (List (VId × P × V)) :=
  if points = [] then none
  else
    let tagged := points.zipIdx.map fun x => (x.2 % 2 ^ 32, x.1)
    let f := key (points.map (·.1))
    some (tagged.mergeSort fun x y => le (f x.2.1) (f y.2.1))

namespace Mesh
variable {P V T R : Type}

/-- The tets that are exported, `solid_tets` in src/tet.rs:3488-3493 -/
def solidTets (m : Mesh P V T) : List (Tet T) :=
  m.tets.values.filter fun t => !(decide (GHOST ∈ [t.vertices 0, t.vertices 1, t.vertices 2, t.vertices 3]))

/-- `export_debug_obj`, src/tet.rs:3487-3535: the positions and polygons written to the file.  `round`
is the conversion of a position to `f32`. -/
def exportObj (round : P → R) (m : Mesh P V T) : Option (List R × List (Nat × Nat × Nat)) := do
  let vs := m.solidTets.flatMap fun t => [t.vertices 0, t.vertices 1, t.vertices 2, t.vertices 3]
  let position ← vs.mapM fun v => do
    let x ← m.vertices.get v
    return round x.position
  let polys := m.solidTets.zipIdx.flatMap fun (_, i) =>
    [(4 * i + 0, 4 * i + 1, 4 * i + 2), (4 * i + 3, 4 * i + 2, 4 * i + 1),
      (4 * i + 2, 4 * i + 3, 4 * i + 0), (4 * i + 1, 4 * i + 0, 4 * i + 3)]
  return (position, polys)

end Mesh
end Tet
