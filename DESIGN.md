# Formal model of hayashi-stl/tet

This directory holds a Lean 4 model of the `tet` crate (`/repo/src`) and proofs
of the properties listed in `properties.jsonl`.

* `lean/Verif/Model/*.lean` - the model: total, computable functions that follow
  the Rust source function by function, every definition citing file and lines.
* `lean/Verif/Spec/*.lean` - small specifications written independently of the
  model helpers (what "consistent mesh", "exact boundary", ... mean).
* `lean/Verif/Proofs/*.lean` - helper lemmas.
* `lean/Verif/Props/*.lean` - the property theorems, one section per property,
  each with a concrete example meeting its hypotheses.
* `MANIFEST.json` - which theorems prove which property.
* `seeded/LOG.jsonl` - wrong versions of the model and the theorems that reject them.

## Trusted base

* Lean 4.33.0's kernel, and the axioms `propext`, `Classical.choice`, `Quot.sound`.
  Every theorem depends on a subset of these three only; there are no own axioms, no `sorry`,
  no `native_decide`, no `bv_decide`.  (`#print axioms Tet.C47_outcome` etc. shows it.)
* That the model follows the Rust source.  This has been checked by reading; every
  definition cites the lines it models.
* That the external crates behave as described here:
  * `stable_vec` 0.4: a list of optional slots with a capacity and its documented panics.
  * `fnv` hash maps and sets: a lookup function; where code iterates over one, the order is a
    parameter of the model and theorems hold for every order.
  * `robust_geo` and `simulation_of_simplicity`: `orient_3d`, `in_sphere` return exact signs;
    the tie-breaking (`sim`) variants are arbitrary functions with the permutation laws that a theorem names, if any.
  * `ncollide3d` bounding volume trees: they visit every pair of elements whose boxes intersect, in any
    order (C53, C54, C60 hold for all orders).
  * `nalgebra` vector arithmetic: arithmetic in a linearly ordered field.
  * `spade`, `obj`: not modelled (see below).

## Modelling conventions

* `&mut self` methods become functions returning the new state.  Panics
  (indexing a missing id, `unwrap` on `None`, failed assertions, explicit `panic!`) and undefined
  behaviour of `get_unchecked` on a missing id become the result `none` in
  `Option`.  "Does not panic" is therefore a statement of the theorems.
* Ids (`u32`) are natural numbers; `IdType::MAX` (the invalid id and ghost
  vertex) is `2^32-1`.  An `IdMap` that would need an id `>= 2^32-1` fails (`none`)
  instead of silently wrapping (C01 has a theorem about that).  Theorems about functions that add elements
  have the hypothesis that there are ids left, or the conclusion that ids have run out as one case.
* Walker edge codes are `Fin 12` (the Rust field is a `u32` documented to be in
  `0..12`, and every constructor and table in the source stays in that range).
* Bit flags are modelled as records of booleans, one per bit.  `Cell`s are ordinary state.
* Loops without a static bound take fuel; running out of fuel is `none`, and
  the theorems about them prove that the result is the same for all large enough fuel (termination).
  The only loop for which that is not proved outright is the one of `edge_intersections_raw`:
  `steps` bounds it, and C67 says that it ends if there is a bound for the length of all trails along the edge.
* Floating point: predicates from `robust_geo` return exact signs, so the
  geometric layer is stated over an arbitrary linearly ordered field with exact
  arithmetic.  Rounding in the non-robust formulas (barycentric coordinates, quality,
  centroid, distances, intersection points) is not modelled.  Combinatorial code that depends on geometry takes
  the geometric test as an arbitrary parameter (oracle), so its theorems hold for
  every outcome, rounded or not; hypotheses on the oracle are named in the theorem and shown for the
  exact tests (e.g. `C46_orient`, `C67_search`).
* `Consistent` (Spec/Mesh.lean) is the invariant of a mesh: the conditions of `assert_integrity` made complete
  (walkers cross triangles to the same triangle, edge records are right and used, edges have one ring,
  oriented triangles belong to one tet, locks agree on both sides, the triangle index is exact while tracked).

## Per property: what is modelled and how it is proved

Names of theorems are in `MANIFEST.json`; below, `CNN_x` is short for `Tet.CNN_x` (`Tet.Plc.CNN_x`, `Tet.IdMap.CNN_x`).

* **C01 New ids are fresh and never alias a live element** (proved). `IdMap::insert` (id_map.rs 77-105): well-formedness invariant (the free list is the list of holes) over all histories of operations; `C01_wraps_when_full` shows what happens when ids run out.
* **C02 An id-keyed collection behaves as a finite map** (proved). All `IdMap` operations: refinement to a finite map by induction over histories.
* **C03 Length and iteration agree with the live ids** (proved). `len`, `keys`, `values`, `iter` of the same model; counting argument on the slots.
* **C04 Inserting at a chosen id** (proved). `insert_with_key`: case analysis on the position of the key (hole, live, beyond the end).
* **C05 Removing elements** (proved). `remove`, `retain`, `clear`: invariant plus exact contents.
* **C06 Bulk insertion keeps input order** (proved). `extend_values`, `from_iter`: induction over the input.
* **C07 Unordered edge and oriented triangle keys are canonical** (proved). `sorted_2/3`, `even_sorted_3`, `TriVertices::new` (tet.rs 38-100): sorting networks, case analysis over all orders.
* **C08 Oriented tet keys are canonical** (proved). `even_sorted_4`: the same for four vertices; even permutations.
* **C09 Walkers always show an even reordering of their tet** (proved). The tables of walker codes (tet.rs 315-377): `decide` over the whole table of 12 codes, lifted to all vertex labels.
* **C10 Reorienting moves do what they document** (proved). Reorienting moves (tet.rs 505-613): complete tables, lifted.
* **C11 Reorienting moves form the group of even permutations** (proved). The moves generate the alternating group: complete tables of 12 x 12 codes.
* **C12 Undirected edge slots are consistent** (proved). `undir_edge_index` and its inverse: complete tables.
* **C13 Crossing a triangle is an involution that keeps the triangle** (proved). `to_twin_tri(_any_edge)` (tet.rs 616-643) on consistent meshes.
* **C14 A new mesh is consistent** (proved). `TetMesh::new`/`with_ids` (tet.rs 1760-1878): the 5 tets written out, every clause of `Consistent` checked; the positions only decide which of two labellings is used.
* **C15 The first tet is positively oriented** (proved). The same function with exact orientation: sign of the determinant after the swap.
* **C16 Walking around an edge visits exactly its ring and terminates** (proved). `edge_ring` (tet.rs 486-500): the step is a permutation of finitely many walkers, so the orbit closes; single ring by `Consistent`.
* **C17 Circular iteration visits a cycle once** (proved). `CircularListIter` (util.rs 72-120): orbits of injective functions.
* **C18 1-to-4 flip** (proved). `flip14_unchecked` (tet.rs 701-807): cavity-replacement theorem (`MeshSurgery`): an abstract replacement of tets with matching outer triangles keeps all clauses of `Consistent`; the flip is an instance. `C18_other_walkers_break`: for walkers that do not start at the first stored vertex the result is not consistent.
* **C19 2-to-3 flip** (proved). `flip23_unchecked` (tet.rs 809-938): instance of the same theorem.
* **C20 3-to-2 flip** (proved). `flip32_unchecked` (tet.rs 978-1112): instance.
* **C21 3-to-2 flip undoes 2-to-3 flip** (proved). Both flips one after the other: the same set of tets, edges, locks.
* **C22 4-to-4 flip** (proved). `flip44_unchecked` (tet.rs 1161-1184) as composition of two flips.
* **C23 Flips only act locally** (proved). What flips keep outside their region: vertices, values, ids of other tets.
* **C24 Flips keep the counts right** (proved). Counts after flips, and Euler's formula V - E + F - T = 0 kept by every flip and true for new meshes.
* **C25 Guarded flips respect locks** (proved). `flip23_unlocked`, `flip32_unlocked`: exact guards; the negative theorems show that the guards do not ensure that the flip is valid.
* **C26 Locks survive flips** (proved). Locks of triangles and edges that survive a flip are unchanged.
* **C27 Quality flips strictly improve** (proved). `flip23_quality`, `flip32_quality` with an arbitrary quality function.
* **C28 The triangle index is exact while tracked** (proved). `set_track_tri_map` and the index updates in all flips: exactness of the index.
* **C29 Looking up a triangle with tracking on is exact** (proved). `walker_from_tri` with the index: sound and complete, no scan.
* **C30 Walking all tets around a vertex** (proved). `walkers_from_vertex` (tet.rs 2043-2049, 3720-3772): graph search invariant; exactly the tets reachable around the vertex (all if the star is connected).
* **C31 Flag-based traversals agree and clean up** (proved). The `_opt` variants with flags: the same elements, and all flags as before.
* **C32 Neighbours of a vertex** (proved). `vertex_target_walkers`, `vertex_targets`.
* **C33 Looking up elements by vertices is sound and complete** (proved). `walker_from_edge/tri/tet` without index: by the traversals.
* **C34 Adjacency between tets is symmetric** (proved). `adjacent_tets`.
* **C35 Orientation test respects permutations and the ghost vertex** (proved). `orient_3d` with the ghost vertex (geo.rs 75-89): determinant identities over a field.
* **C36 Volume and centroid** (proved). `tet_volume(_x6)`, `tet_centroid` (tet.rs 1950-1991); volumes before and after flips add up.
* **C37 Triangle-edge intersection test is exact** (proved). `tri_intersects_edge(_sim)` (geo.rs 262-323): equivalent to the existence of a common point of the open edge and the open triangle when not coplanar.
* **C38 Edge-edge intersection test** (proved). `edge_intersects_edge` (geo.rs 276-307): equivalent to a common interior point for crossing coplanar edges; `C38_never` for touching ones.
* **C39 In-sphere test respects the walker and the ghost vertex** (proved). `in_sphere` (geo.rs 145-169): invariance under the 12 walkers, ghost rule, meaning for solid tets.
* **C40 Tet quality does not depend on how the tet is read** (proved). `quality` (geo.rs 92-134).
* **C41 The insertion cavity has an exact boundary** (proved). `point_cavity`, convex and growing (tet.rs 1513-1640): worklist invariant. `C41_leftover`: convex without growing leaves marks.
* **C42 Filling a cavity with a vertex** (proved). `flip_in_vertex_unchecked` (tet.rs 2172-2343): the cavity-replacement theorem for cavities whose boundary is a set of discs (`Fillable`); `C42_returns`: whenever it returns, without an assumption on ids.
* **C43 Delaunay construction keeps the caller's vertex ids** (proved). `delaunay_from_vertices` (tet.rs 2347-2436): induction over the sorted vertices; vertex ids are input positions. The search may give up, which the statement mentions.
* **C44 Spatial sorting is a permutation** (proved). `hilbert_sort` (util.rs 5-71) with an arbitrary place on the curve: a stable permutation of the input with its original indices; it panics for the empty list only.
* **C45 Edge/triangle removal leaves its bookkeeping balanced** (proved). `progress_by_removing_edge/_tri` (tet.rs 1189-1512): mutual induction over depth, no assumption on the mesh.
* **C46 Edge/triangle removal ends, reports the truth and keeps the mesh consistent** (proved). The same functions on meshes with orientation: every path is a sequence of allowed flips. `C46_concave` shows that one branch does nothing; `C46_none_changes` that `None` does not mean unchanged.
* **C47 Recovering an edge** (proved). `recover_and_lock_edge` (tet.rs 2667-2737) with arbitrary tests and searches (`RecoverTests`), and with the exact ones (`C47_exact`). Negative: `C47_vertex_on_edge`, `C47_no_crossing`, `C47_untracked_panics`.
* **C48 Recovering a triangle** (proved). `recover_and_lock_tri` (tet.rs 3232-3302), in the same way.
* **C49 PLC edges are found by their endpoints** (proved). `Plc::add_edge`, `add_edges`, `edge lookup` (plc.rs 366-435): map from pairs of vertices to edges exact over all histories.
* **C50 PLC faces read back as they were given** (proved). `Plc::add_face` and the read functions (plc.rs 440-547): the rings read back are the rings given.
* **C51 PLC linked lists stay consistent** (proved). The circular lists behind vertices and edges; `C51_isolated_twice`, `C51_loop` show what the source lets through (a vertex isolated in two faces, an edge from a vertex to itself).
* **C52 Invalid PLC faces are rejected** (proved). The panics of `add_edge`/`add_face` on bad input.
* **C53 Validation reports exactly the right class of error** (proved). `Plc::validate` (plc.rs 615-695) for every visiting order: which class of error is reported.
* **C54 Intersection reports never involve touching elements and never repeat** (proved). `intersect.rs` 74-211: reports are of disjoint elements and not repeated; `C54_twice` shows that two coinciding faces are not reported.
* **C55 Point-in-face parity** (proved). `point_in_face` parity (plc/intersect.rs 21-64): invariance under order, start and direction of rings; for a ring it is the parity of the triangles of a fan that contain the point; exact for triangles; never true outside of the convex hull.
* **C56 Debug export has consistent indices** (proved). `export_debug_obj` (tet.rs 3487-3535): index arithmetic; no file output.
* **C57 Distances to the ghost vertex** (proved). `vertex_distance(2)` with the ghost vertex.
* **C58 Quality flipping ends, keeps the mesh consistent and never lowers the minimum quality** (proved). `flip_quality` (tet.rs 2549-2615): termination by a multiset order on qualities; two negative theorems about missed flips.
* **C59 Point-in-tet test** (proved). `point_in_tet` (geo.rs 464-477).
* **C60 Bounding boxes never hide an intersection** (proved). Bounding boxes of `plc/intersect.rs` 213-252: disjoint boxes imply that elements do not intersect.
* **C61 Flat faces are never reported as twisted** (proved). `calc_face_plane` (plc.rs 535-546) over a field.
* **C62 The cavity of a constraint point is star-shaped and spares locked elements** (proved). `point_cavity`, not convex (tet.rs 1644-1710): greatest fixed point argument. `C62_triangle_swallowed` is the negative case.
* **C63 Adding a vertex to a Delaunay mesh** (proved). `add_vertex_delaunay(_internal)` (tet.rs 2440-2546).
* **C64 What the integrity check guarantees** (proved). `assert_integrity` (tet.rs 3537-3686) is equivalent to a list of conditions, weaker than `Consistent`.
* **C65 Recovering the edges of a PLC** (proved). `recover_and_lock_edges` (tet.rs 3427-3452).
* **C66 Recovering the boundary of a PLC** (proved). `recover_and_lock_boundary` (tet.rs 3456-3484) for the triangles that `Plc::tris` gives.
* **C67 What an edge runs through** (proved). `edge_intersections_raw` and its helpers (geo.rs 326-428); the points on the edge are not part of the result.
* **C68 What runs through a triangle** (proved). `tri_intersections_raw` (geo.rs 537-581).
* **C69 Adding a vertex keeps the mesh Delaunay** (proved). `add_vertex_delaunay(_internal)` with `exactGeo`: the mesh is lifted to a convex surface in dimension five (`Hull`); the search ends in a conflict because a minimum of a ratio exists, the cavity is connected and its boundary has a single fan around every vertex (`Cav`), so the cavity can be filled (C63), and the cones are convex again.
* **C70 Delaunay tets tile the convex hull** (proved). Same lifting; the tet hit from below.
* **C71 The Delaunay mesh is unique** (proved). Same lifting: every supporting hyperplane through four vertices is a tet.
* **C72 How large a Delaunay mesh can be** (proved). Counting: a generic linear height on the lifted surface has no two equal tets next to each other, and each tet is the highest or the lowest one around one of its edges.
* **C73 delaunay_from_vertices returns the Delaunay mesh** (proved). `delaunay_from_vertices` (tet.rs 2347-2436) with `exactGeo`: the five tets of `with_ids` are convex after lifting, every insertion keeps that (C69), C72 bounds the ids needed, and the final `assert_integrity` passes because the centre is inside the hull.  `Wide` says that the tolerance tests on the first four points succeed; with a Euclidean norm it bounds the heights of triangles and tets from below.
* **C74 Flips and recovery in a mesh that fills space** (proved). Homogeneous coordinates turn ghost tets into simplicial cones; a mesh that fills space is a fan (`Fan`): the cones around a 2-3 or 3-2 flip cover the same set before and after, and an edge or triangle that existed already would have to meet the inside of one of the tets flipped. `C74_quality`: no quality is below -1, so flips that improve it are flips to positive tets.
* **C75 Positively oriented meshes cover space evenly** (proved). The number of cones around a point is constant along a generic segment, since each triangle has one tet on either side (`FanCount`); Delaunay meshes by C70.
* **C76 The search for what is in the way of an edge is complete** (proved). Points on the edge from one tet to the next (`FanLine`): a triangle that is left on its inner side is entered on its outer side, parameters increase, and nothing is hit between consecutive triangles; the sign test agrees with hitting the triangle (`hits_iff`). Connectivity of the tets at a vertex: a walk close to the vertex along a generic segment (`FanWalk`).
* **C77 Recovering edges never panics in general position** (proved). If all triangles that C76 lists are removed and the edge is still missing, the tets at its start have another triangle in the way; but the flips add none.
* **C78 The search for what is in the way of a triangle is complete** (proved). If the triangle is missing, the tets around its first edge have an edge through it, and the edges through it are connected by triangles: the plane of the missing triangle cuts each tet in a polygon, and points of the triangle in two neighbouring tets are joined by a generic segment (`FanTri`). Nothing goes through a triangle of the mesh (`edge_no_tri`).
* **C79 Recovering triangles panics only where the solid has a dent** (proved). As C77; the flips add no edge through the triangle because the symbolic test agrees with the exact one in general position. `C79_panics` follows the program to `walker_from_edge([GHOST, v])`, `ratDent` is a mesh for it.
* **C80 Putting a Steiner point into an edge or triangle** (proved). `insertSteiner`: the cavity of `point_cavity` with locks is star-shaped from the point (`StarCavity`, `StarGrow`, `StarStart`), so its boundary is a sphere around the point and the cones over it fill it (`StarFill`), which gives the hypotheses of C42 (`StarInsert`, `SteinerInsert`); locks by `coned_edge`, `coned_tri` (`SteinerSplit`).
* **C81 Intersection points are on the edge and in the element** (proved). Cramer's rule for the orientations that the search computes (`Computed.amid`, also with a ghost corner); in general position the quotient is the parameter of the plane in C76 (`edgePoints_order`). `ratLong` for the negative statement.
* **C82 Recovering an edge with Steiner points** (proved). Induction on the depth of nested calls: C80 for the point of C81, `Chained` for both parts joined (`join_chain`). `SteinerFails` lists the ways not to return, with the mesh at that time.
* **C83 Intersection points of a triangle** (proved). Cramer's rule as for C81 (`triPoint_amid`); C78 for completeness.
* **C84 What the tolerance means** (proved). `planeDistance` is the only number that unit normals of the side can give (`planeDistance_eq`); convexity for points near the tet (`not_far`). `normalize` of the zero vector gives 0 instead of NaN in the model, which does not happen for tets that are not flat. Quality by C40.
* **C85 Normals of triangles** (proved). `orient_2d` as a determinant; identities.
* **C86 The time until a moving vertex meets the boundary of a ball** (proved). The five orientations are the weights of the meeting point times a common factor, by multilinearity of the determinant (`baryTime_iff`), for closed triangles with ghost corners too. Division by zero is 0 instead of NaN or infinity, both of which the source filters out. `ratMoveA`, `ratMoveB` for the negative statements.
* **C87 Intersections with several triangles** (proved). As C68 for the search, as C86 for the points. The condition in the model is parsed as in Rust (`&&` before `||`).
* **C88 Removing an edge with a cap keeps the mesh consistent** (proved). `capTransform` (`Model/Transform`). `CapFlips` makes a reference mesh with the same tets by 2-to-3 and 3-to-2 flips along the ear decomposition, which is consistent by C19 and C20; `CapDrop` says what is left when the old tets are gone, `InsertTet` what `insert_tet` does while the mesh is a part of the reference mesh (`Part`), `CapFinish` and `CapMain` put this together and compute the locks. `C88_locks` is the equivalence, `C88_fills` follows from C90.
* **C89 Removing an edge with a shell keeps the mesh consistent** (proved). As C88 with a closed ring (`shell_main`); the last tet of the ring is taken away with the edge.
* **C90 The hull decides whether positive tets fill space** (proved). A vector with negative last coordinate is in no cone of a solid tet, so the tets at the ghost vertex alone say how often it is covered; by C75 this is so for all vectors (`HullFill`).
* **C91 Loading an OBJ file keeps its contents** (proved). `fromObj` (`Model/Obj`) is a sequence of the calls of C49-C52, with the groups flattened (`fromObj_eq`); `C91_panics` by induction with the number of ids left.
* **C92 The region of the triangulation beside an edge** (proved). `cdtRegion` (`Model/TriSteiner`) over a record of functions for the triangulation (`CdtOps`: spade is not modelled). `regionLoop_reached`: what the loop collects is closed under going over unconstrained sides; `regionLoop_ends` by the number of faces that are left.
* **C93 Recovering a triangle with Steiner points** (proved). `recoverTriWithSteiner` (`Model/TriSteiner`), partial correctness: rounds, steps and depth are bounds of the model. `C82` for the three edges; then an invariant of the loop (`LoopInv`, `Proofs/TriSteiner`): the open edges together with the sides of the triangles locked so far are the closed path around the triangle, so by counting crossings with signs (`TriPlane`, `TriCover`) each point off the lines is in exactly one triangle once no edge is open (`LoopInv.paved`). The triangle locked at an edge is one that the ring at the edge has, with a corner among the vertices of the loop on the left side; whether the intersections are complete plays no role. The triangulation (`IsCdt`), the orders of hash sets and the transform to the plane (`Flattens`: any affine one; the source uses an isometry) are parameters; the returned triangulation and its maps are left out. That putting a point anywhere into an edge is sound follows from the assertion that the cavity is star-shaped (`insert_edge`, `StarSeen`). 0/0 in a coordinate is 0 instead of NaN; this gives a corner, where the assertion fails as a vertex is there. `C93_panics`: the same triangle, listed in another order, fails this assertion for every bound.
* **C94 Moving Steiner points off a triangle** (proved). `moveSteiner` (`Model/MoveSteiner`), partial correctness and for the vertices only: cap and shell transforms do not touch positions, values and the set of vertices, nor do the flips that sink the copy. Triangulation, norm and orders of hash maps are parameters (`MoveEnv`); `normalize` of the zero vector gives 0 instead of NaN, which hypotheses exclude. The times of C86 and C87 are only needed to be positive. Nothing is claimed about the tets afterwards. The run of the example that the kernel checks skips the faces of the region (`gapEnv`); the full run is evaluated with `#guard`.

## Where the source violates what one would expect

The statements in `properties.jsonl` say what holds.  These theorems show concrete meshes or PLCs for which the natural stronger
statement fails:

| Theorem | What happens |
|---|---|
| `C01_wraps_when_full` | inserting into a full map of 2^32 slots hands out id 0, which is in use |
| `C18_other_walkers_break` | `flip14_unchecked` on a walker that does not start at the first stored vertex leaves an inconsistent mesh |
| `C25_guard23_insufficient`, `C25_guard32_insufficient` | the `_unlocked` flips return `Some` although the flip makes a duplicate edge or triangle |
| `C41_leftover` | `point_cavity` with convex but without growing leaves its marks set |
| `C46_concave` | the branch of `progress_by_removing_edge` for concave rings never does anything |
| `C46_none_changes` | `progress_by_removing_edge` returns `None` after changing the mesh |
| `C47_vertex_on_edge` | `recover_and_lock_edge` panics if a vertex lies on the edge |
| `C47_untracked_panics` | the public recovery functions panic without the triangle index, which is private |
| `C51_isolated_twice`, `C51_loop` | a vertex isolated in two faces refers to one of them only; an edge from a vertex to itself is accepted |
| `C54_twice` | a face with the same rings as another one is not reported |
| `C58_rotated_skipped`, `C58_stale_index` | quality flipping misses improving flips; an old index is used |
| `C62_triangle_swallowed` | a locked triangle without locked edges ends up inside a cavity |
| `C64_not_consistent`, `C64_missing_vertex` | `assert_integrity` accepts meshes that are not consistent |
| `C79_panics`, `C79_dent` | `recover_and_lock_tri` panics for a triangle over a dent of the hull (in the order of its vertices that makes the search list an edge from the ghost vertex) |
| `C81_not_closest` | `edge_mid_intersection` does not give the intersection closest to the midpoint |
| `C86_too_late`, `C86_never` | `time_until_not_star_shaped` gives a time, or none, although half of this time, or the way to the target, inverts solid tets |
| `C87_own` | `tris_intersections` reports edges at the vertices of the triangles, even for a triangle of the mesh |
| `C88_locks`, `C89_locks` | `cap_transform` and `shell_transform` leave a triangle that is locked on one side only if a triangle under the path was locked |
| `C92_one_face` | the region of `cdt_region` is a single face if sides of a face have this face on their left |
| `C93_panics` | `recover_tri_with_steiner_points` panics for a triangle whose pieces are all in the mesh when its corners are listed in one order, and recovers it in another |
| `C94_edge_handle` | `move_steiner_points_inside_volume` looks up the handle of an edge in its map of vertices for a Steiner point inside the triangle, and panics if no vertex happens to have the same handle |

## Not modelled

* `Plc::tris` (the constrained Delaunay triangulation is done by the `spade` crate); `recover_and_lock_boundary` is modelled for an
  arbitrary list of triangles.
* Traversal of bounding volume trees (taken as an arbitrary visiting order of candidate pairs).
* OBJ parsing and file output (`obj` crate, `load_obj`, `export_*` file access); `from_obj` starts from the parsed data (C91), and of export only the index arithmetic is modelled.
* What tets `move_steiner_points_inside_volume` leaves: C94 is about its vertices. The steps that it uses have properties of their own
  (C80, C86, C88, C89).
* `Display`, `Debug`, `Clone` and similar derived code; commented-out functions.
* Concurrency: the crate has none.
