{"id": "C01", "title": "New ids are fresh and never alias a live element", "statement": "Whenever an element is added to an id-keyed collection (vertices, edges, faces, tets), the returned id was not in use before, is different from the reserved invalid/ghost id, and looking it up gives the element just added, while every id that was live before still gives the same element. (As long as fewer than 2^32 - 1 ids are in use; with 2^32 slots in use the id wraps around to 0.)", "quantifier": "every state reachable by any finite sequence of insert / insert-with-key / remove / retain / clear / extend calls, any values", "why_tests_cant": "freshness depends on the whole allocate/free history (the free list), which is unbounded", "anchors": ["src/id_map.rs: IdMap::insert, IdMap::insert_with_key, IdMap::remove", "src/lib.rs: id! (invalid, valid)"]}
{"id": "C02", "title": "An id-keyed collection behaves as a finite map", "statement": "For every history of operations, what get returns for each id, and what each operation returns, is exactly what an abstract finite map from ids to values would give; no operation panics as long as at most 2^32 - 1 elements are inserted in total and the reserved id is not used as a key.", "quantifier": "all finite operation histories on an IdMap, all keys (present, removed, never used, out of range) and values", "why_tests_cant": "the state space of histories is infinite and bugs (double free, forgotten hole) only show after particular interleavings", "anchors": ["src/id_map.rs: IdMap"]}
{"id": "C03", "title": "Length and iteration agree with the live ids", "statement": "len is the number of live ids; iter/keys/values list every live id exactly once, in ascending id order, with its current value; the debug assertion inside len never fires.", "quantifier": "all reachable IdMap states", "why_tests_cant": "requires the free list to be exactly the set of holes after any history", "anchors": ["src/id_map.rs: IdMap::len, IdMap::iter, IdMap::keys, IdMap::values, IntoIter"]}
{"id": "C04", "title": "Inserting at a chosen id", "statement": "insert_with_key stores the value at the given id, returns the value previously there (if any), changes nothing else, and a later automatic insertion never hands out that id while it is live - also when the key lies beyond the current end or in a hole.", "quantifier": "all reachable IdMap states, all keys below the reserved id, all values and all continuations", "why_tests_cant": "the hole bookkeeping between the end of the map and the key must be right for every distance and every subsequent history", "anchors": ["src/id_map.rs: IdMap::insert_with_key, Extend<(K,V)>"]}
{"id": "C05", "title": "Removing elements", "statement": "remove returns exactly the element that was live at the id (None for absent or out of range ids, without effect), retain keeps exactly the elements accepted by the predicate, clear leaves nothing; other ids are untouched.", "quantifier": "all reachable IdMap states, keys and predicates", "why_tests_cant": "ranges over all predicates and histories", "anchors": ["src/id_map.rs: IdMap::remove, IdMap::retain, IdMap::clear"]}
{"id": "C06", "title": "Bulk insertion keeps input order", "statement": "Building an id map from a sequence of n values gives ids 0..n-1 in sequence order; extending any map by a sequence yields one id per value, pairwise distinct, each holding the corresponding value (as long as ids are left).", "quantifier": "all value sequences of any length; all reachable maps", "why_tests_cant": "arbitrary length and arbitrary prior history", "anchors": ["src/id_map.rs: IdMap::extend_values, FromIterator<V>, FromIterator<(K,V)>"]}
{"id": "C07", "title": "Unordered edge and oriented triangle keys are canonical", "statement": "Two directed edges get the same undirected key iff they are equal or reversed; two vertex triples get the same oriented-triangle key iff one is a rotation of the other, so the two sides of a triangle have different keys; the unordered triangle key identifies exactly the triples with the same vertices.", "quantifier": "all pairs and triples of (distinct, for orientation) vertex ids, including the ghost id", "why_tests_cant": "ids range over all 2^32 values and all orders", "anchors": ["src/tet.rs: sorted_2, sorted_3, even_sorted_3, TriVertices::new, EdgeOrTri::sorted"]}
{"id": "C08", "title": "Oriented tet keys are canonical", "statement": "The sorted key of a 4-tuple of distinct vertices is an even reordering of it, and two 4-tuples have the same key iff one is an even permutation of the other; hence a property computed from the key does not depend on which walker was used to read the tet.", "quantifier": "all 4-tuples of distinct vertex ids and all 12 even permutations", "why_tests_cant": "ids range over all values", "anchors": ["src/tet.rs: even_sorted_4", "src/tet/geo.rs: quality"]}
{"id": "C09", "title": "Walkers always show an even reordering of their tet", "statement": "For every tet and every walker on it, first/second/third/fourth list the tet's four vertices each exactly once, in an order that is an even permutation of the stored order (so orientation is never reversed); edge, opp_edge, tri, opp_tri and tet are the corresponding sub-tuples.", "quantifier": "every tet (any vertices) and each of its 12 walkers", "why_tests_cant": "any vertex labels; the table must be right for all 12 codes simultaneously", "anchors": ["src/tet.rs: TetWalker::{first,second,third,fourth,edge,opp_edge,tri,opp_tri,tet}"]}
{"id": "C10", "title": "Reorienting moves do what they document", "statement": "to_next_tri_edge/to_prev_tri_edge rotate the current triangle keeping the fourth vertex, to_next_vertex_edge/to_prev_vertex_edge rotate around the first vertex, to_twin_edge swaps (first,second) and (third,fourth), to_opp_edge swaps the edge with the opposite edge, and to_perm(_abcd) reads the old walker's vertices in the order a,b,c,d; none of them leaves the tet.", "quantifier": "every mesh, every live walker, all 12 permutations", "why_tests_cant": "any vertex labels and meshes, full composition table", "anchors": ["src/tet.rs: to_nfe, to_pfe, to_nve, to_pve, to_twin_edge, to_opp_edge, to_perm, permutation_arr"]}
{"id": "C11", "title": "Reorienting moves form the group of even permutations", "statement": "next/prev moves are mutually inverse, three nexts are the identity, twin and opp are involutions, to_perm composes like permutations, and for any two walkers on one tet exactly one permutation takes one to the other.", "quantifier": "every pair of walkers on every tet and all compositions of moves", "why_tests_cant": "arbitrary long compositions", "anchors": ["src/tet.rs: to_nfe, to_pfe, to_nve, to_pve, to_twin_edge, to_opp_edge, to_perm, PERMUTATION_FWD, PERMUTATION_INV"]}
{"id": "C12", "title": "Undirected edge slots are consistent", "statement": "Two walkers on a tet address the same undirected edge slot iff they have the same endpoints (in either direction); the slot-to-walker map hits each of the six edges once.", "quantifier": "every tet with distinct vertices and all pairs of its walkers", "why_tests_cant": "any vertex labels", "anchors": ["src/tet.rs: undir_edge_index, to_undir_edge, undir_edges"]}
{"id": "C13", "title": "Crossing a triangle is an involution that keeps the triangle", "statement": "In any mesh with consistent adjacency, to_adj goes to the tet on the other side, with the current edge reversed and the same third vertex, to_adj twice returns to the same walker, and it commutes with rotating the triangle; to_adj_ae reaches the same triangle.", "quantifier": "all meshes satisfying integrity, all live walkers", "why_tests_cant": "arbitrary mesh size and connectivity", "anchors": ["src/tet.rs: to_adj, to_adj_ae, to_twin_tri, assert_integrity"]}
{"id": "C14", "title": "A new mesh is consistent", "statement": "TetMesh::new on any four points gives 5 tets (one solid, four ghost), 4 vertices with ids 0..3 in argument order, 10 edges, and satisfies every integrity condition, whichever orientation the points have.", "quantifier": "all 4-tuples of points and values, both outcomes of the orientation test", "why_tests_cant": "ranges over all point configurations (both orientation branches) and must satisfy universally quantified integrity", "anchors": ["src/tet.rs: TetMesh::new, TetMesh::with_ids"]}
{"id": "C15", "title": "The first tet is positively oriented", "statement": "In a mesh made by TetMesh::new from points in general position, orient_3d of every tet, read through any walker, is positive - for the solid tet and (with the ghost at the mesh centre) for the four ghost tets.", "quantifier": "all non-degenerate 4-tuples of points", "why_tests_cant": "ranges over a continuum of configurations", "anchors": ["src/tet.rs: TetMesh::with_ids", "src/tet/geo.rs: orient_3d"]}
{"id": "C16", "title": "Walking around an edge visits exactly its ring and terminates", "statement": "edge_ring from any live walker terminates, starts with that walker, visits pairwise distinct walkers that all have the same directed edge and live tets, consecutive ones share a triangle containing the edge, and the last is followed by the first; every walker reachable by turning around the edge is visited.", "quantifier": "all meshes satisfying integrity, all live walkers", "why_tests_cant": "termination and completeness depend on the whole mesh, not on a sample", "anchors": ["src/tet.rs: edge_ring, WalkerEdgeRing"]}
{"id": "C17", "title": "Circular iteration visits a cycle once", "statement": "The circular list iterator started at an element of a finite cycle yields every element of the cycle exactly once, in next order, starting with the start element, then stops forever.", "quantifier": "every finite cyclic successor function and start element", "why_tests_cant": "cycle length is unbounded", "anchors": ["src/util.rs: CircularListIter"]}
{"id": "C18", "title": "1-to-4 flip", "statement": "Flipping a vertex that is not yet in the mesh into a live tet keeps the mesh consistent and replaces exactly that tet by the four tets joining the new vertex to its faces; exactly four edges (new vertex to each corner) are added.", "quantifier": "all consistent meshes, all live tets, all unattached vertices", "why_tests_cant": "any surrounding connectivity, including tets that touch each other along several faces", "anchors": ["src/tet.rs: TetWalker::flip14_unchecked"]}
{"id": "C19", "title": "2-to-3 flip", "statement": "Flipping a triangle whose two opposite vertices differ (and are not yet joined by an edge) keeps the mesh consistent, replaces exactly the two incident tets by the three tets around the new edge, adds exactly that edge, and returns walkers on the new tets.", "quantifier": "all consistent meshes and live walkers meeting the precondition", "why_tests_cant": "any surrounding connectivity and any of the 12 walker codes on either side", "anchors": ["src/tet.rs: TetWalker::flip23_unchecked"]}
{"id": "C20", "title": "3-to-2 flip", "statement": "Flipping an edge surrounded by exactly three tets whose new triangle is not already in the mesh keeps the mesh consistent, replaces exactly these three tets by the two tets on either side of the new triangle, removes exactly that edge, and returns walkers on the two new tets.", "quantifier": "all consistent meshes and live walkers whose edge ring has length three", "why_tests_cant": "any surrounding connectivity and walker codes", "anchors": ["src/tet.rs: TetWalker::flip32_unchecked"]}
{"id": "C21", "title": "3-to-2 flip undoes 2-to-3 flip", "statement": "Performing a 2-to-3 flip and then a 3-to-2 flip on the edge it created gives back a mesh with exactly the same tets (as oriented vertex tuples) and the same edges.", "quantifier": "all consistent meshes and flippable triangles", "why_tests_cant": "any surrounding connectivity", "anchors": ["src/tet.rs: flip23_unchecked, flip32_unchecked"]}
{"id": "C22", "title": "4-to-4 flip", "statement": "Flipping an edge surrounded by four tets keeps the mesh consistent, replaces those four tets by the four tets around the other diagonal, leaves the numbers of tets and edges unchanged, and the returned walkers all have the new edge.", "quantifier": "all consistent meshes and walkers whose edge ring has length four (and whose new diagonal is not an edge)", "why_tests_cant": "composition of two flips in arbitrary surroundings", "anchors": ["src/tet.rs: TetWalker::flip44_unchecked"]}
{"id": "C23", "title": "Flips only act locally", "statement": "A flip never changes any vertex's position or value, never changes the vertices or value of a tet outside the flipped region, and every tet that is not part of the region keeps its id.", "quantifier": "all meshes (even inconsistent ones for positions and values), all flips", "why_tests_cant": "frame conditions quantify over all untouched elements", "anchors": ["src/tet.rs: flip14_unchecked, flip23_unchecked, flip32_unchecked, flip44_unchecked"]}
{"id": "C24", "title": "Flips keep the counts right", "statement": "Each 1-4, 2-3, 3-2, 4-4 flip changes the number of tets by +3, +1, -1, 0 and the number of edges by +4, +1, -1, 0; no flip adds or removes a stored vertex; with V the number of vertices used by tets, V - E + F - T of the mesh is invariant under any sequence of flips.", "quantifier": "all consistent meshes and all finite sequences of flips", "why_tests_cant": "arbitrary sequences", "anchors": ["src/tet.rs: flip14_unchecked, flip23_unchecked, flip32_unchecked, flip44_unchecked, num_tets, num_vertices"]}
{"id": "C25", "title": "Guarded flips respect locks", "statement": "flip23_unlocked on a locked triangle and flip32_unlocked on a locked edge, on an edge with a locked triangle, or on an edge without exactly three tets return None and leave the mesh exactly as it was; otherwise they perform the flip.", "quantifier": "all meshes and walkers", "why_tests_cant": "all lock patterns and connectivity", "anchors": ["src/tet.rs: flip23_unlocked, flip32_unlocked"]}
{"id": "C26", "title": "Locks survive flips", "statement": "After a 1-4, 2-3 or 3-2 flip, both sides of every triangle agree on whether it is locked; a triangle present before and after is locked after iff it was locked before; no newly created triangle is locked; edge locks are unchanged.", "quantifier": "all consistent meshes and flips", "why_tests_cant": "all lock patterns and connectivity", "anchors": ["src/tet.rs: flip14_unchecked, flip23_unchecked, flip32_unchecked, TetFlags"]}
{"id": "C27", "title": "Quality flips strictly improve", "statement": "flip23_quality / flip32_quality change the mesh only when the element is unlocked and flippable and the minimum quality of the replacing tets is strictly greater than the minimum quality of the replaced tets; otherwise they return None and leave the mesh unchanged.", "quantifier": "all meshes, walkers and quality functions", "why_tests_cant": "quality values are arbitrary reals", "anchors": ["src/tet.rs: flip23_quality, flip32_quality", "src/tet/geo.rs: quality"]}
{"id": "C28", "title": "The triangle index is exact while tracked", "statement": "After set_track_tri_map(true) on a consistent mesh the index has exactly one entry for every oriented triangle of the mesh, leading to a walker with that triangle; this stays true under every flip. Turning tracking off leaves the recorded entries in place, unused by lookups.", "quantifier": "all consistent meshes and all finite sequences of flips", "why_tests_cant": "arbitrary sequences of updates to an index", "anchors": ["src/tet.rs: set_track_tri_map, tri_map, flip14_unchecked, flip23_unchecked, flip32_unchecked"]}
{"id": "C29", "title": "Looking up a triangle with tracking on is exact", "statement": "While the triangle index is tracked, walker_from_tri(t) returns a live walker whose oriented triangle is exactly t in the requested rotation if the mesh has such a triangle, and None otherwise.", "quantifier": "all consistent tracked meshes and vertex triples", "why_tests_cant": "any mesh and triple, all three rotations", "anchors": ["src/tet.rs: walker_from_tri, TriVertices::new, to_edge_assuming_tri"]}
{"id": "C30", "title": "Walking all tets around a vertex", "statement": "walkers_from_vertex(v) terminates, yields only live walkers whose first vertex is v, at most one per tet, and yields one for every tet containing v that is connected to the start through triangles at v; in meshes made by new and flips these are all tets containing v.", "quantifier": "all consistent meshes and attached vertices", "why_tests_cant": "termination and completeness of a graph search over arbitrary meshes", "anchors": ["src/tet.rs: walkers_from_vertex, WalkersFromVertex, vertex_tets"]}
{"id": "C31", "title": "Flag-based traversals agree and clean up", "statement": "walkers_from_vertex_opt yields the same sequence as walkers_from_vertex, and when it is dropped - after any number of items - no marker flag is left set, so a later traversal is not affected; the same for the target iterators.", "quantifier": "all consistent meshes with clean flags, every number of items taken before dropping", "why_tests_cant": "early drop points and meshes are unbounded", "anchors": ["src/tet.rs: WalkersFromVertexOpt, VertexTargetWalkersOpt"]}
{"id": "C32", "title": "Neighbours of a vertex", "statement": "vertex_targets(v) yields every vertex that shares a (reachable) tet with v exactly once, and never v itself; if the tets at v are connected these are exactly the vertices joined to v by an edge.", "quantifier": "all consistent meshes and attached vertices", "why_tests_cant": "arbitrary meshes", "anchors": ["src/tet.rs: vertex_targets, VertexTargetWalkers"]}
{"id": "C33", "title": "Looking up elements by vertices is sound and complete", "statement": "walker_from_edge / walker_from_tri / walker_from_tet return Some only for a live walker showing exactly the requested vertices, and return None only if no tet around the first vertex has them.", "quantifier": "all consistent meshes and vertex tuples", "why_tests_cant": "negative answers quantify over the whole mesh", "anchors": ["src/tet.rs: walker_from_edge, walker_from_tri, walker_from_tet"]}
{"id": "C34", "title": "Adjacency between tets is symmetric", "statement": "In a consistent mesh adjacent_tets(t) lists four live tets, none of them t itself, and u is listed for t exactly as often as t is listed for u.", "quantifier": "all consistent meshes and tets", "why_tests_cant": "arbitrary connectivity", "anchors": ["src/tet.rs: adjacent_tets"]}
{"id": "C35", "title": "Orientation test respects permutations and the ghost vertex", "statement": "orient_3d changes sign under every odd and is unchanged under every even permutation of its arguments, wherever the ghost vertex is; with a ghost it is minus the orientation with the ghost replaced by the mesh centre, and it is zero when two arguments coincide.", "quantifier": "all positions, all vertex arguments including the ghost in any position (exact arithmetic)", "why_tests_cant": "ranges over a continuum of positions", "anchors": ["src/tet/geo.rs: orient_3d"]}
{"id": "C36", "title": "Volume and centroid", "statement": "tet_volume_x6 is None exactly for tets with a ghost vertex and otherwise equals the signed orientation determinant of its vertices, independent of the walker used; 1-4, 2-3 and 3-2 flips of solid tets keep the sum of the volumes of the tets they replace; the centroid is strictly inside a positively oriented tet.", "quantifier": "all tets and all positions (exact arithmetic)", "why_tests_cant": "continuum of positions", "anchors": ["src/tet.rs: tet_volume_x6, tet_volume, tet_centroid"]}
{"id": "C37", "title": "Triangle-edge intersection test is exact", "statement": "For solid vertices in general position, tri_intersects_edge is true iff the open segment crosses the open triangle at an interior point; the answer does not depend on rotating the triangle or reversing the edge and triangle.", "quantifier": "all positions (exact arithmetic)", "why_tests_cant": "continuum of positions", "anchors": ["src/tet/geo.rs: tri_intersects_edge, tri_edge_bary"]}
{"id": "C38", "title": "Edge-edge intersection test", "statement": "edge_intersects_edge is symmetric in reversing either edge and swapping the edges, never true for edges that are not coplanar or share a vertex position, and true for properly crossing coplanar segments.", "quantifier": "all positions (exact arithmetic)", "why_tests_cant": "continuum of positions", "anchors": ["src/tet/geo.rs: edge_intersects_edge, edge_edge_bary"]}
{"id": "C39", "title": "In-sphere test respects the walker and the ghost vertex", "statement": "in_sphere for a tet gives the same sign for all 12 walkers of the tet; when the tet is a ghost tet it reduces to the orientation of its solid triangle with the query point; for a solid, positively oriented tet the result is positive, zero or negative exactly when the (solid) query vertex is inside, on or outside the circumscribed sphere, which exists.", "quantifier": "all positions, all 12 even reorderings, ghost in any position (exact arithmetic)", "why_tests_cant": "continuum of positions", "anchors": ["src/tet/geo.rs: in_sphere"]}
{"id": "C40", "title": "Tet quality does not depend on how the tet is read", "statement": "quality gives the identical value for all 12 walkers of a solid tet, even in floating point, because it is computed from a canonical order; it is -1 whenever the tet is inverted or flat and otherwise the smallest distance between points on opposite simplexes (a vertex and the plane of the opposite triangle, or the lines of two opposite edges).", "quantifier": "all tets, all walkers, all positions", "why_tests_cant": "continuum of positions, all orders", "anchors": ["src/tet/geo.rs: quality", "src/tet.rs: even_sorted_4"]}
{"id": "C41", "title": "The insertion cavity has an exact boundary", "statement": "point_cavity (convex Delaunay case, growing) terminates; the enclosed tets are pairwise distinct, contain the initial tets and are exactly the tets reachable from them through tets failing the sphere test; the returned boundary lists each triangle between an enclosed and a non-enclosed tet exactly once; the mesh with all marker flags is as before. (With convex but without growing, the marks are left set.)", "quantifier": "all consistent meshes with clean flags, all start tets and all outcomes of the in-sphere test", "why_tests_cant": "worklist algorithm on arbitrary meshes", "anchors": ["src/tet.rs: TetWalker::point_cavity"]}
{"id": "C42", "title": "Filling a cavity with a vertex", "statement": "flip_in_vertex_unchecked replaces the enclosed tets by exactly one tet per boundary triangle joining it to the vertex, keeps every other tet and every lock of what remains, returns the new tets in the order of the triangles and leaves a consistent mesh without temporary marks; it always terminates.", "quantifier": "all consistent meshes, all cavities whose surface is a closed manifold through all their vertices, unattached vertex", "why_tests_cant": "arbitrary cavity size and shape", "anchors": ["src/tet.rs: flip_in_vertex_unchecked"]}
{"id": "C43", "title": "Delaunay construction keeps the caller's vertex ids", "statement": "If delaunay_from_vertices returns, the mesh has one vertex per input point and vertex i has the i-th position and value, whatever order the points were inserted in; it refuses fewer than four points.", "quantifier": "all input sequences, all spatial sort orders", "why_tests_cant": "arbitrary input length and permutation", "anchors": ["src/tet.rs: delaunay_from_vertices, add_vertex_delaunay_internal", "src/util.rs: hilbert_sort"]}
{"id": "C44", "title": "Spatial sorting is a permutation", "statement": "hilbert_sort returns every input point with its value exactly once, tagged with its position in the input.", "quantifier": "all nonempty point sequences", "why_tests_cant": "arbitrary length", "anchors": ["src/util.rs: hilbert_sort"]}
{"id": "C45", "title": "Edge/triangle removal leaves its bookkeeping balanced", "statement": "Whenever progress_by_removing_edge / _tri return, the list of goals and the list of forbidden edges are exactly as before the call, for every nesting depth and without any assumption on the mesh; with depth 0 nothing is changed and no progress is reported; in a mesh as the functions expect it a reported index is that of a goal or, just after the goals, of the element itself.", "quantifier": "all meshes, depths, goal stacks and counters; every oracle outcome", "why_tests_cant": "mutual recursion of unbounded depth", "anchors": ["src/tet.rs: progress_by_removing_edge, progress_by_removing_tri"]}
{"id": "C46", "title": "Edge/triangle removal ends, reports the truth and keeps the mesh consistent", "statement": "In a consistent mesh with its triangle index and without negatively oriented tets, from which no flip to positively oriented tets runs into an existing edge or triangle, progress_by_removing_edge / _tri end at every depth and do nothing but flips of unlocked elements to positively oriented tets, adding only edges and triangles that the caller allows and no triangle at a forbidden edge. A reported index is that of the first goal which was removed and the goals before it are kept; without a report all goals and the element itself are kept, though the mesh may have changed. The mesh stays consistent, vertices and locks are the same. With the orientation test of the program the branch for a concave ring of three tets never does anything in such a mesh.", "quantifier": "all such meshes, depths, goals, forbidden edges and outcomes of the caller's tests", "why_tests_cant": "mutual recursion of unbounded depth performing unboundedly many flips", "anchors": ["src/tet.rs: progress_by_removing_edge, progress_by_removing_tri"]}
{"id": "C47", "title": "Recovering an edge", "statement": "In a consistent mesh with its triangle index and without negatively oriented tets, from which no flip to positively oriented tets runs into an existing edge or triangle, recover_and_lock_edge (whose search for crossing elements is a property of its own) ends and does nothing but flips of unlocked elements that add nothing which crosses the edge and, at the end, lock the edge. If it returns true, the edge is in the mesh and locked; if it returns false, something that crossed the edge at the start is still there and the locks are as before. Previously locked elements stay locked, the mesh stays consistent and the vertices are the same. It panics only if the search does, or an end of the edge is not in the mesh, or everything in the way could be removed and the edge is still missing. (That happens if a vertex lies on the edge: then it always panics. Without the triangle index, which users cannot turn on, removing an edge with three tets around it always panics.)", "quantifier": "all such meshes, edges, depths and outcomes of the geometric tests", "why_tests_cant": "loop of unboundedly many removals", "anchors": ["src/tet.rs: recover_and_lock_edge"]}
{"id": "C48", "title": "Recovering a triangle", "statement": "In a mesh as for recovering an edge, recover_and_lock_tri ends and does nothing but flips of unlocked elements, and locks of the triangle and its edges. If it returns true, the triangle is in the mesh, both of its sides and its edges are locked; if it returns false, no triangle has been locked and something is in the way of the triangle or one of its edges. Previously locked elements stay locked, the mesh stays consistent and the vertices are the same.", "quantifier": "all such meshes, triangles and outcomes of the geometric tests", "why_tests_cant": "loop of unboundedly many removals", "anchors": ["src/tet.rs: recover_and_lock_tri"]}
{"id": "C49", "title": "PLC edges are found by their endpoints", "statement": "After any history, edge_id([a,b]) is Some(e) iff an edge from a to b was added; adding it again (add_edge) keeps the id and replaces the value, add_edge_if_absent keeps id and value; edges are directed; adding edges never changes other edges' ids, endpoints or values.", "quantifier": "all finite histories of add_vertex/add_edge/add_edge_if_absent/add_face on a new Plc", "why_tests_cant": "unbounded histories", "anchors": ["src/plc.rs: add_edge, add_edge_if_absent, add_new_edge, edge_id"]}
{"id": "C50", "title": "PLC faces read back as they were given", "statement": "For every face added with nonempty rings of existing vertices, face.vertices yields exactly the given rings in the given order, each ring's vertices in the given cyclic order starting at the first, and ring.edges yields the edges joining consecutive vertices; later additions do not change this.", "quantifier": "all finite histories on a new Plc, all rings of any length", "why_tests_cant": "unbounded histories and ring lengths", "anchors": ["src/plc.rs: add_face, Face::vertices, Face::rings, FaceRing::vertices, FaceRing::edges", "src/util.rs: CircularListIter"]}
{"id": "C51", "title": "PLC linked lists stay consistent", "statement": "After any history, following next/prev around a vertex's outgoing (incoming) edges enumerates exactly the edges leaving (entering) it, in insertion order, and around an edge enumerates exactly the face corners using it; likewise the corners of a ring and the rings of a face. Every id that is stored refers to something that exists and refers back, except that a vertex isolated in several rings only refers to the last of them.", "quantifier": "all finite histories on a new Plc", "why_tests_cant": "unbounded histories of linked-list surgery", "anchors": ["src/plc.rs: add_new_edge, add_face, assert_integrity"]}
{"id": "C52", "title": "Invalid PLC faces are rejected", "statement": "add_face panics exactly when the face has no rings, some ring is empty, or some ring vertex does not exist; in all other cases it returns a new face id.", "quantifier": "all Plc states reachable by histories, all ring lists", "why_tests_cant": "unbounded inputs", "anchors": ["src/plc.rs: add_face"]}
{"id": "C53", "title": "Validation reports exactly the right class of error", "statement": "validate returns Ok iff no face is degenerate, no face is twisted and no two elements intersect; a degenerate face is reported before twistedness and twistedness before intersections, and each report lists exactly the offending elements.", "quantifier": "all Plcs and all geometric outcomes", "why_tests_cant": "arbitrary number of faces and outcomes", "anchors": ["src/plc.rs: validate"]}
{"id": "C54", "title": "Intersection reports never involve touching elements and never repeat", "statement": "Every pair of elements reported as intersecting shares no vertex, and each unordered pair is reported at most once, whatever order the broad phase visits the pairs in.", "quantifier": "all Plcs, all pairs and visiting orders", "why_tests_cant": "all pairs and orders", "anchors": ["src/plc/intersect.rs: IntersectionTest::visit", "src/plc.rs: validate"]}
{"id": "C55", "title": "Point-in-face parity", "statement": "The point-in-face decision never panics and is independent of the order of rings, of the starting vertex and of the direction of each ring, also for points on the boundary; it is the parity of the number of fan triangles (from any apex) that contain the point; for a triangle it is right off the boundary; and a point found to be in a face is in the convex hull of one of its rings.", "quantifier": "all rings and points", "why_tests_cant": "unbounded ring sizes", "anchors": ["src/plc/intersect.rs: point_in_face"]}
{"id": "C56", "title": "Debug export has consistent indices", "statement": "The exported OBJ has four positions per solid tet and only refers to existing positions; ghost tets are not exported; the faces of each exported tet refer only to that tet's own four positions.", "quantifier": "all meshes", "why_tests_cant": "arbitrary mesh size", "anchors": ["src/tet.rs: export_debug_obj"]}
{"id": "C57", "title": "Distances to the ghost vertex", "statement": "vertex_distance2 is symmetric, zero between a vertex and itself (also for the ghost), and infinite exactly between the ghost and a solid vertex.", "quantifier": "all pairs of vertices including ghost", "why_tests_cant": "all positions", "anchors": ["src/tet.rs: vertex_distance, vertex_distance2"]}
{"id": "C58", "title": "Quality flipping ends, keeps the mesh consistent and never lowers the minimum quality", "statement": "flip_quality on a consistent mesh ends after finitely many flips; each flip is of an unlocked element and makes the worst of the tets concerned better, so the minimum quality over all tets is never lowered; the mesh stays consistent and vertices and locks are the same. This can only fail if an improving flip would have to add an edge or triangle that exists already, or ids run out. Without the triangle index there are no 2-to-3 flips at all. (Improving flips of triangles are missed if the triangle is not queued in sorted order; an index left over from an earlier tracking period is still used.)", "quantifier": "all consistent meshes, all quality functions that depend only on the tet and the vertices", "why_tests_cant": "loop with unboundedly many flips", "anchors": ["src/tet.rs: flip_quality"]}
{"id": "C59", "title": "Point-in-tet test", "statement": "tet_intersects_vertex for a solid, positively oriented tet is true exactly if the vertex is strictly inside, for vertices on none of the four planes; for every tet, also ghost tets, the answer is the same for all 12 walkers, ties included.", "quantifier": "all positions and tie-breaking tests that alternate (exact arithmetic)", "why_tests_cant": "continuum of positions", "anchors": ["src/tet/geo.rs: tet_intersects_vertex, orient_3d_sim"]}
{"id": "C60", "title": "Bounding boxes never hide an intersection", "statement": "In exact arithmetic, two PLC elements that are closer than the tolerance (or cross) have bounding boxes that intersect, so validation finds the same problems as a test of all pairs: it succeeds exactly if no face is degenerate, no vertex of a face is half the tolerance or more off its plane and no two disjoint elements are too close.", "quantifier": "all PLCs built by the API, all tolerances", "why_tests_cant": "continuum of positions, arbitrarily many elements", "anchors": ["src/plc/intersect.rs: vertex_bound, edge_bound, face_bound, visit", "src/plc.rs: Plc::validate"]}
{"id": "C61", "title": "Flat faces are never reported as twisted", "statement": "In exact arithmetic the plane computed for a face whose vertices lie in a plane contains all of them, so validation never reports it as twisted, whatever the positive tolerance.", "quantifier": "all PLCs built by the API whose faces are flat", "why_tests_cant": "arbitrarily many vertices, rings and holes", "anchors": ["src/plc.rs: calc_face_plane, Plc::validate"]}
{"id": "C62", "title": "The cavity of a constraint point is star-shaped and spares locked elements", "statement": "In the non-convex case point_cavity terminates; the result is the largest part of the grown cavity whose outer triangles are all seen from inside by the point and which has no outer triangle on an excluded tet, listed without repetition together with its exact boundary; it panics exactly if that part is empty; the mesh and its marks are as before. A locked edge, or a locked triangle with locked edges, is inside the result only if it was inside the initial tets. (A locked triangle whose edges are not locked is not spared.)", "quantifier": "all consistent meshes with clean marks, all initial sets of tets with their exact boundary, all outcomes of the geometric tests", "why_tests_cant": "worklist algorithms on arbitrary meshes", "anchors": ["src/tet.rs: TetWalker::point_cavity"]}
{"id": "C63", "title": "Adding a vertex to a Delaunay mesh", "statement": "add_vertex_delaunay always ends. If its search gives up it panics; otherwise the cavity is the set of tets reachable from the tet found through tets with the vertex in their circumscribed sphere, and if that cavity can be filled the call returns: the tets of the cavity are replaced by cones from the new vertex over its boundary, the mesh is consistent without leftover marks, and the locks, positions and values of everything else are kept. In exact arithmetic a solid tet is in conflict exactly if the vertex is strictly inside its sphere and a ghost tet exactly if the vertex is beyond its triangle.", "quantifier": "all consistent meshes, positions, hash orders and tie-breaking tests", "why_tests_cant": "search and cavity of unbounded size in arbitrary meshes", "anchors": ["src/tet.rs: add_vertex_delaunay, add_vertex_delaunay_internal"]}
{"id": "C64", "title": "What the integrity check guarantees", "statement": "If assert_integrity passes, every vertex is attached to a tet that has it, crossing a triangle from any walker leads to a tet with the same triangle, and crossing back leads to the same four vertices, both sides have the same lock, edges are stored once with the vertices the tets say, and (if asked for) all tets have positive orientation; this holds for every result of delaunay_from_vertices. Every consistent mesh whose vertices are attached passes. The check does not notice tets that are stored twice, nor missing vertices.", "quantifier": "all meshes", "why_tests_cant": "arbitrary mesh size", "anchors": ["src/tet.rs: assert_integrity, delaunay_from_vertices"]}
{"id": "C65", "title": "Recovering the edges of a PLC", "statement": "In a mesh as for recovering an edge, recover_and_lock_edges ends, whatever the order of its hash set. It panics only as recover_and_lock_edge does. Otherwise it has done nothing but flips of unlocked elements and locks of edges of the PLC, and afterwards every edge of the PLC is in the mesh and locked, or reported as missing because something was in its way when its turn came.", "quantifier": "all such meshes, all lists of edges, all hash orders, all geometric tests", "why_tests_cant": "unboundedly many edges, each with unboundedly many removals", "anchors": ["src/tet.rs: recover_and_lock_edges"]}
{"id": "C66", "title": "Recovering the boundary of a PLC", "statement": "In a mesh as for recovering a triangle (the triangle index is turned on by the function), recover_and_lock_boundary ends. It panics only as recover_and_lock_tri does. Otherwise it has done nothing but flips of unlocked elements and locks of triangles of the PLC and their edges, and afterwards every triangle of the PLC is in the mesh and locked on both sides, or reported as missing because recovering it failed at some time.", "quantifier": "all such meshes, all lists of triangles, all geometric tests", "why_tests_cant": "unboundedly many triangles, each with unboundedly many removals", "anchors": ["src/tet.rs: recover_and_lock_boundary"]}
{"id": "C67", "title": "What an edge runs through", "statement": "edge_intersections_raw lists a trail of elements from the first end of the edge: each one crosses the edge, the first one is opposite to the first vertex in a tet, consecutive ones are different and share a tet, and the trail stops only where a tet has the other end or nothing more crosses. It panics only if an end of the edge does not exist, and loops only if there are trails of unbounded length.", "quantifier": "all consistent meshes with exact arithmetic, all pairs of vertices", "why_tests_cant": "continuum of positions, arbitrary mesh size", "anchors": ["src/tet.rs: edge_intersections_raw, first_edge_intersection, next_edge_intersection"]}
{"id": "C68", "title": "What runs through a triangle", "statement": "tri_intersections_raw ends and lists edges without repetition that cross the triangle: it starts with one that is opposite to the first edge of the triangle in a tet, and lists everything that can be reached from there over triangles of the mesh with two crossing edges. It lists nothing only if nothing opposite to the first edge crosses, and panics only if a vertex or the first edge is missing.", "quantifier": "all consistent meshes with exact arithmetic, all triples of vertices", "why_tests_cant": "graph search in arbitrary meshes", "anchors": ["src/tet.rs: tri_intersections_raw"]}
{"id": "C69", "title": "Adding a vertex keeps the mesh Delaunay", "statement": "With exact arithmetic, add_vertex_delaunay on a Delaunay mesh (positively oriented tets with all other vertices strictly outside of their circumscribed spheres, and all vertices behind the triangles of the ghost tets), at a point that is on none of these spheres and in none of the planes of the hull, neither panics nor gives up: it returns for every start of the search and every iteration order of its hash maps, the result is a consistent Delaunay mesh of exactly the old vertices and the new one, and positions, values and locks are kept.", "quantifier": "all Delaunay meshes over an ordered field, all such points, starts and iteration orders, with room for ids", "why_tests_cant": "continuum of positions, arbitrary mesh size; that the search finds a conflict and that the cavity is a topological ball is a theorem about convexity", "anchors": ["src/tet.rs: add_vertex_delaunay, add_vertex_delaunay_internal, point_cavity, flip_in_vertex_unchecked"]}
{"id": "C70", "title": "Delaunay tets tile the convex hull", "statement": "In a Delaunay mesh no point is strictly inside two solid tets, and every convex combination of its vertices lies in a solid tet.", "quantifier": "all consistent Delaunay meshes over an ordered field, all points", "why_tests_cant": "statement about all points of space", "anchors": ["src/tet.rs: TetMesh::delaunay_from_vertices, add_vertex_delaunay"]}
{"id": "C71", "title": "The Delaunay mesh is unique", "statement": "In a Delaunay mesh four vertices form a solid tet exactly if they are positively oriented and their circumscribed sphere contains no other vertex, and three form a ghost tet exactly if all other vertices are behind them. So two Delaunay meshes of the same vertices have the same tets, and the tets after adding a vertex depend neither on the start of the search nor on hash map iteration order.", "quantifier": "all consistent Delaunay meshes over an ordered field", "why_tests_cant": "universal statement about pairs of executions and arbitrary meshes", "anchors": ["src/tet.rs: TetMesh::delaunay_from_vertices, add_vertex_delaunay_internal"]}
{"id": "C72", "title": "How large a Delaunay mesh can be", "statement": "A consistent mesh has at most one edge per pair of vertices, counting the ghost vertex as one. A Delaunay mesh has at most twice as many tets, ghost tets included, as edges, so at most n(n+1) tets for n vertices.", "quantifier": "all consistent (Delaunay) meshes over an ordered field", "why_tests_cant": "bound for meshes of every size and shape", "anchors": ["src/tet.rs: num_tets, num_edges, TetMesh::delaunay_from_vertices"]}
{"id": "C73", "title": "delaunay_from_vertices returns the Delaunay mesh", "statement": "With exact arithmetic and at least four points of which no four are in a plane and no five on a sphere, whose triangles and tets are not thinner than the tolerance, delaunay_from_vertices returns without a panic. The result is consistent and Delaunay, its vertices are exactly the points, in the order given and with their values, and its tets are exactly the positively oriented quadruples of points whose circumscribed sphere contains no other point; its ghost tets are exactly the triangles of the convex hull. So the tets do not depend on the order of insertion, on hash iteration order or on how ties are broken.", "quantifier": "all lists of such points over an ordered field with 13n(n+1) below the largest id, all insertion and iteration orders", "why_tests_cant": "continuum of inputs of every length; the whole algorithm has to be right", "anchors": ["src/tet.rs: TetMesh::delaunay_from_vertices, with_ids, add_vertex_delaunay_internal, assert_integrity"]}
{"id": "C74", "title": "Flips and recovery in a mesh that fills space", "statement": "If the tets of a consistent mesh are positively oriented and fill space (every point in no plane of a triangle is in exactly one tet, where a ghost tet stands for what is seen from the center through its triangle), a flip to positively oriented tets never has to add an edge or triangle that exists; the new mesh fills space again. So recover_and_lock_edge, _tri, _edges and _boundary never get stuck in such a mesh and what they return fills space. The same holds for flip_quality, if the center is in no plane of three vertices.", "quantifier": "all consistent meshes over an ordered field that fill space and have ids left, all edges and triangles to recover", "why_tests_cant": "universal statement about meshes of every size and all sequences of flips; a geometric impossibility cannot be sampled", "anchors": ["src/tet.rs: flip23_unchecked, flip32_unchecked, recover_and_lock_edge, recover_and_lock_tri, recover_and_lock_edges, recover_and_lock_boundary"]}
{"id": "C75", "title": "Positively oriented meshes cover space evenly", "statement": "If all tets of a consistent mesh, ghost tets included, are positively oriented, all points in no plane of a triangle are in the same number of tets; so the mesh fills space if that is one for a single point. Delaunay meshes fill space; in particular what delaunay_from_vertices returns does, and recover_and_lock_boundary after it ends, reports every triangle that it has not locked, and keeps that.", "quantifier": "all consistent meshes over an ordered field with positively oriented tets; all points", "why_tests_cant": "continuum of points and meshes of every size", "anchors": ["src/tet.rs: TetMesh::delaunay_from_vertices, assert_integrity, recover_and_lock_boundary", "src/tet/geo.rs: orient_3d"]}
{"id": "C76", "title": "The search for what is in the way of an edge is complete", "statement": "In a consistent mesh that fills space and in which no four vertices, and no three vertices and the center, are in a plane, edge_intersections_raw for two different solid vertices ends, lists exactly the triangles of the mesh that the edge crosses (no edges, since none can cross), each of them once and in the order in which the edge meets them; the list is empty iff the edge is in the mesh. The tets at a vertex of a mesh that fills space are connected through triangles with that vertex, so walks around a vertex reach all of them.", "quantifier": "all such meshes over an ordered field, all pairs of vertices", "why_tests_cant": "completeness of a search in meshes of every size and shape; a missed triangle shows up only in special configurations", "anchors": ["src/tet/geo.rs: edge_intersections_raw, tri_intersects_edge, edge_intersects_edge", "src/tet.rs: walkers_from_vertex"]}
{"id": "C77", "title": "Recovering edges never panics in general position", "statement": "In a mesh as for C76 with its triangle index and ids to spare, recover_and_lock_edge for two different solid vertices never panics at any depth. It returns true iff the edge is in the mesh that it leaves, and then the edge is locked; otherwise a triangle crosses the edge. In the mesh that it leaves nothing crosses the edge that did not cross it before. recover_and_lock_edges never panics either; at the end every edge is locked, or missing because a triangle was in its way.", "quantifier": "all such meshes over an ordered field, all edges, depths and orders", "why_tests_cant": "absence of panics for all meshes and all sequences of flips", "anchors": ["src/tet.rs: recover_and_lock_edge, recover_and_lock_edges"]}
{"id": "C78", "title": "The search for what is in the way of a triangle is complete", "statement": "In a consistent mesh that fills space and has no four vertices in a plane (and no three in a plane with the center), for three solid vertices that are joined by edges tri_intersections_raw lists exactly the edges of the mesh that go through the triangle, each of them once; the list is empty iff the triangle is in the mesh. So three joined vertices are a triangle of the mesh iff no edge goes through.", "quantifier": "all such meshes over an ordered field, all triangles whose edges are in the mesh", "why_tests_cant": "completeness of a geometric search for all meshes", "anchors": ["src/tet/geo.rs: tri_intersections_raw, tri_intersects_edge"]}
{"id": "C79", "title": "Recovering triangles panics only where the solid has a dent", "statement": "In a mesh as for C78 with its triangle index and ids to spare, recover_and_lock_tri for three different solid vertices returns true iff the triangle is in the mesh that it leaves, and then the triangle and its edges are locked; otherwise something is in the way of one of its edges or of the triangle. It panics only if the edges have been recovered and an edge to the ghost vertex goes through the triangle, which is outside of the solid tets then. recover_and_lock_boundary does the same for all triangles, also right after delaunay_from_vertices. (Where the hull has a dent, recovering the triangle over it does panic, if its vertices are given in the order in which the search lists that edge from the ghost vertex.)", "quantifier": "all such meshes over an ordered field, all triangles and lists of triangles", "why_tests_cant": "panics for all meshes and all sequences of flips; the panic needs a dent and a particular order of vertices", "anchors": ["src/tet.rs: recover_and_lock_tri, recover_and_lock_boundary, walker_from_edge"]}
{"id": "C80", "title": "Putting a Steiner point into an edge or triangle", "statement": "In a consistent mesh that fills space and has no temporary marks and ids to spare, let a point be strictly inside an edge or triangle of the mesh. When recover_edge_with_steiner_points inserts it, it panics exactly if the edge or a triangle at it (or the triangle) is locked. Otherwise the point is a new vertex with the value of the first vertex of the edge to recover; it is joined to all corners of the element, which is no longer in the mesh; all other vertices keep their positions and values and stay in the mesh; the mesh is consistent and fills space again; locked edges stay locked, and so do locked triangles whose edges are locked.", "quantifier": "all such meshes over an ordered field, all elements whose first vertex is not the ghost vertex, all points inside, whatever the cavity looks like", "why_tests_cant": "the cavity grows and shrinks depending on the points and the locks; star-shapedness and topology of all cavities", "anchors": ["src/tet.rs: recover_edge_with_steiner_points, point_cavity, flip_in_vertex_unchecked, assert_edge_removable_by_edge_steiner, assert_tri_removable_by_edge_steiner"]}
{"id": "C81", "title": "Intersection points are on the edge and in the element", "statement": "For two solid vertices of a consistent mesh every point of edge_intersections is strictly between the vertices and strictly inside the triangle or edge that it is reported with; edge_mid_intersection gives one of them, or None only if there are none. In a mesh as for C76 the points are exactly the crossings with triangles of the mesh, in strict order from the first vertex to the second. (The point of edge_mid_intersection need not be the one closest to the midpoint, as documented: the coordinates are compared before they are divided by their sum.)", "quantifier": "all consistent meshes over an ordered field, all pairs of vertices", "why_tests_cant": "continuum of positions; coordinates of different triangles have to fit together along the whole edge", "anchors": ["src/tet/geo.rs: edge_intersections, edge_mid_intersection, edge_intersections_raw"]}
{"id": "C82", "title": "Recovering an edge with Steiner points", "statement": "In a consistent mesh that fills space and has no temporary marks, if recover_edge_with_steiner_points returns, then the returned vertices are new and different, they are strictly inside the segment in the order in which they are returned, and all pieces of the segment are edges of the mesh and locked. The mesh is consistent and fills space, old vertices stay with their positions and values, old locked edges stay locked and no others are locked, and locked triangles whose edges are locked stay locked. It does not return only if the nesting is too deep, the search for crossings does not end, an element in the way is locked, has the ghost vertex first, or ids run out, or a piece that nothing crosses is not in the mesh.", "quantifier": "all such meshes over an ordered field, all pairs of vertices, all depths of nested calls", "why_tests_cant": "recursion of unbounded depth over meshes of every size", "anchors": ["src/tet.rs: recover_edge_with_steiner_points"]}
{"id": "C83", "title": "Intersection points of a triangle", "statement": "For three solid vertices of a consistent mesh, every point of tri_intersections is strictly inside the triangle and strictly inside the mesh edge it is reported with, also if that edge ends at the ghost vertex; the edges are those of tri_intersections_raw. In a mesh as for C78 they are exactly the edges through the triangle.", "quantifier": "all consistent meshes over an ordered field, all triples of different solid vertices", "why_tests_cant": "continuum of positions, edges to the point at infinity", "anchors": ["src/tet/geo.rs: tri_intersections, tri_intersections_raw"]}
{"id": "C84", "title": "What the tolerance means", "statement": "For a positively oriented solid tet, tet_close_to_vertex is true exactly if for none of the four sides the vertex is beyond the plane of the side by the tolerance or more; so it is true for every vertex whose distance from some point of the tet is less than the tolerance. For a ghost tet it is true exactly if the vertex is not on the inner side of its triangle by the tolerance or more, from all twelve walkers. non_sliver is true exactly if the tet is positively oriented and points on opposite simplexes are never nearer than the tolerance; all walkers of a tet give the same answer.", "quantifier": "all positions over an ordered field with square roots, all tolerances (above -1 for non_sliver), all walkers", "why_tests_cant": "continuum of positions; four planes and the position of the ghost vertex among the arguments", "anchors": ["src/tet/geo.rs: tet_close_to_vertex, non_sliver"]}
{"id": "C85", "title": "Normals of triangles", "statement": "tri_normal is perpendicular to the edges of the triangle, its product with the vector to a point is minus the orientation of the triangle with this point, its square is four times the square of the area, and it is zero exactly if the vertices are on a line.", "quantifier": "all positions over an ordered field", "why_tests_cant": "algebraic identity over a continuum of positions", "anchors": ["src/tet/geo.rs: tri_normal"]}
{"id": "C86", "title": "The time until a moving vertex meets the boundary of a ball", "statement": "In a consistent mesh that fills space, time_until_not_star_shaped never panics for a solid vertex and gives the first time at which the segment from center to target comes upon one of the closed triangles opposite to the vertex (other than triangles in whose planes the segment runs), and None exactly if it comes upon none of them. (This is not the time until which the region is star-shaped, as the comment has it: half of that time, or the whole way if there is None, can invert solid tets at the vertex, because these are inverted in the planes of the triangles and not only in the triangles.)", "quantifier": "all such meshes over an ordered field, all vertices, centers and targets", "why_tests_cant": "continuum of positions; the minimum over all tets at a vertex", "anchors": ["src/tet/geo.rs: time_until_not_star_shaped", "src/tet.rs: move_steiner_points_inside_volume"]}
{"id": "C87", "title": "Intersections with several triangles", "statement": "In a consistent mesh that fills space, tris_intersections for triangles of solid vertices, starting at an edge of the mesh, ends without panic and gives pairwise different edges of the mesh; each is reported with a point that is in one of the closed triangles and in the closed edge, or lies in the plane of one of the triangles. (Edges at the vertices of the triangles are meant to be excluded, but are reported if the coordinates are negative: then even a triangle of the mesh has intersections.)", "quantifier": "all such meshes over an ordered field, all lists of triangles, all starting edges", "why_tests_cant": "search through meshes of every size; degenerate positions", "anchors": ["src/tet/geo.rs: tris_intersections, tris_intersections_raw"]}
{"id": "C88", "title": "Removing an edge with a cap keeps the mesh consistent", "statement": "cap_transform for a path of side vertices around the edge from vert_top to vert_bottom, whose tets are in the mesh, and triangles that fill the polygon of the path and have no side inside it in common with the mesh: the transform does not panic and replaces exactly the tets between path and edge by the tet at the ends of the path and by the tets over and under the triangles. It leaves a consistent mesh if and only if neither a triangle under the path nor one of the two at its ends is locked (locks are not copied to new tets; one remains on the outer tet only). In that case the locked triangles are the former ones without those over the path, plus the new triangles, and the locked edges the former ones without those from vert_top to the path, plus the sides of the new triangles; points and vertex values do not change. If the mesh fills space and the new tets are positively oriented, the result fills space.", "quantifier": "all consistent meshes with triangle index, all paths, all ways to fill the polygon with triangles in any order, all vertex pairs", "why_tests_cant": "adjacency, representative tets, edge records and locks are repaired by hand with two side maps; paths of every length and all triangulations", "anchors": ["src/tet.rs: cap_transform, insert_tet, move_steiner_points_inside_volume"]}
{"id": "C89", "title": "Removing an edge with a shell keeps the mesh consistent", "statement": "shell_transform for a closed ring of side vertices around the edge from vert_top to vert_bottom, with triangles that fill the ring, are not in the mesh yet and have no side inside it in common with the mesh: the transform does not panic, replaces exactly the tets at the edge by the tets over and under the triangles and removes the edge itself. It leaves a consistent mesh if and only if no triangle under the ring is locked; then locks change as for cap_transform, and the edge loses its lock too; and if the mesh fills space and the new tets are positively oriented, the result fills space.", "quantifier": "all consistent meshes with triangle index, all rings, all ways to fill them with triangles in any order", "why_tests_cant": "adjacency, representative tets, edge records and locks are repaired by hand with two side maps; rings of every length and all triangulations", "anchors": ["src/tet.rs: shell_transform, insert_tet, move_steiner_points_inside_volume"]}
{"id": "C90", "title": "The hull decides whether positive tets fill space", "statement": "Two consistent meshes with the same points and the same tets at the ghost vertex: if one of them fills space (its tets are positively oriented and every point off the planes is in exactly one) and all tets of the other one are positively oriented, then the other one fills space too. So local changes that keep the hull can be judged by the orientations of the new tets alone.", "quantifier": "all pairs of consistent meshes over an ordered field", "why_tests_cant": "statement about all points of space in meshes of every size", "anchors": ["src/tet.rs: cap_transform, shell_transform, flip_in_vertex_unchecked", "src/tet/geo.rs: orient_3d"]}
{"id": "C91", "title": "Loading an OBJ file keeps its contents", "statement": "from_obj gives vertices with exactly the positions of the file in order, edges for exactly the polygons with two corners (in their direction) and the sides of all other polygons, each once and with the default value, and faces for exactly the other polygons in order over all objects and groups, each with one ring that lists the corners in order. As long as there are ids it panics exactly if a polygon has no corners or a corner whose index, cut to 32 bits, is not that of a position.", "quantifier": "all parsed files with any positions, objects, groups and polygons", "why_tests_cant": "files of every size and shape", "anchors": ["src/plc.rs: Plc::from_obj"]}
{"id": "C92", "title": "The region of the triangulation beside an edge", "statement": "cdt_region gives the triangles of exactly those faces of the triangulation that can be reached from the face at the edge by going over listed sides that are not constraints, each face once; if only finitely many faces can be reached it ends, and it panics only if a vertex has no handle, there is no edge between them, or a face has no triangle of known vertices. (The search goes on with the sides themselves and not with their opposites: if the sides of a face have this face on their left, as spade documents it, the region is always a single face.)", "quantifier": "all triangulations given by their adjacency functions, all constraints, all orders of hash sets", "why_tests_cant": "triangulations of every size; results depend on hash orders", "anchors": ["src/tet.rs: cdt_region, recover_tri_with_steiner_points"]}
{"id": "C93", "title": "Recovering a triangle with Steiner points", "statement": "In a mesh that fills space, if recover_tri_with_steiner_points returns, then all of the following hold. The mesh is consistent and fills space. The reported Steiner points are exactly the new vertices; those of an edge are in order strictly inside the edge and have the value of its first vertex, those of the triangle are in the triangle and have the value of the first corner; all other vertices are as before. The triangle is paved without gap or overlap with triangles whose corners are its corners and the Steiner points; these triangles and their sides are locked in the mesh, everything that was locked stays locked, and nothing else is. (It can panic, depending on the order of the corners, even for a triangle whose pieces are already in the mesh.)", "quantifier": "all meshes over an ordered field that fill space and in which sides of locked triangles are locked, all triangles of solid vertices, all triangulations that keep their vertices, all affine transforms to the plane that turn the triangle counterclockwise, all orders of hash sets, all depths and numbers of rounds", "why_tests_cant": "continuum of positions; number of Steiner points and rounds is unbounded; hash orders and the triangulation decide what is done", "anchors": ["src/tet.rs: recover_tri_with_steiner_points, recover_edge_with_steiner_points, cdt_region, flip_in_vertex_unchecked", "src/tet/geo.rs: tris_intersections"]}
{"id": "C94", "title": "Moving Steiner points off a triangle", "statement": "If move_steiner_points_inside_volume returns, it gives the Steiner points in turns with newly made vertices, their copies. The copies are distinct vertices that were not in the mesh before, with the values of the points they belong to. A point on an edge of the triangle goes to the side from which the triangle is seen counterclockwise and its copy to the other side of its plane, both also away from the triangle and perpendicular to the edge. A point inside the triangle and its copy move perpendicularly to the triangle, or stay, and not to the same side. No other vertex is moved, changed, added or removed. (For a point inside, the handle of an edge is looked up as if it was that of a vertex: the function panics if no vertex has that handle.)", "quantifier": "all meshes, triangles that are not degenerate, distinct Steiner points other than its corners, triangulations of it, and orders of hash maps", "why_tests_cant": "which points go where depends on unseeded hash map orders and on float times until tets get flat; a test sees one triangle", "anchors": ["src/tet.rs: move_steiner_points_inside_volume"]}
