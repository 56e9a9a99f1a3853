{
 "claims": [
  {
   "property": "C01",
   "status": "proved",
   "theorems": [
    "Tet.Props.C01_fresh_id",
    "Tet.Props.C01_insert_succeeds",
    "Tet.Props.C01_wraps_when_full"
   ],
   "note": ""
  },
  {
   "property": "C02",
   "status": "proved",
   "theorems": [
    "Tet.Props.C02_refines_finite_map"
   ],
   "note": ""
  },
  {
   "property": "C03",
   "status": "proved",
   "theorems": [
    "Tet.Props.C03_len_and_iter"
   ],
   "note": ""
  },
  {
   "property": "C04",
   "status": "proved",
   "theorems": [
    "Tet.Props.C04_insert_with_key"
   ],
   "note": ""
  },
  {
   "property": "C05",
   "status": "proved",
   "theorems": [
    "Tet.Props.C05_remove",
    "Tet.Props.C05_retain",
    "Tet.Props.C05_clear"
   ],
   "note": ""
  },
  {
   "property": "C06",
   "status": "proved",
   "theorems": [
    "Tet.Props.C06_from_values",
    "Tet.Props.C06_extend_values",
    "Tet.Props.C06_extend_values_fresh"
   ],
   "note": ""
  },
  {
   "property": "C07",
   "status": "proved",
   "theorems": [
    "Tet.C07_edge_key",
    "Tet.C07_tri_key",
    "Tet.C07_sides_differ",
    "Tet.C07_unordered_tri_key"
   ],
   "note": ""
  },
  {
   "property": "C08",
   "status": "proved",
   "theorems": [
    "Tet.C08_key_is_even_reordering",
    "Tet.C08_key_canonical"
   ],
   "note": ""
  },
  {
   "property": "C09",
   "status": "proved",
   "theorems": [
    "Tet.C09_even_reordering",
    "Tet.C09_accessors"
   ],
   "note": ""
  },
  {
   "property": "C10",
   "status": "proved",
   "theorems": [
    "Tet.C10_moves",
    "Tet.C10_to_perm"
   ],
   "note": ""
  },
  {
   "property": "C11",
   "status": "proved",
   "theorems": [
    "Tet.C11_inverses",
    "Tet.C11_composition",
    "Tet.C11_simply_transitive",
    "Tet.C11_unique_walker"
   ],
   "note": ""
  },
  {
   "property": "C12",
   "status": "proved",
   "theorems": [
    "Tet.C12_slots",
    "Tet.C12_slot_walkers"
   ],
   "note": ""
  },
  {
   "property": "C13",
   "status": "proved",
   "theorems": [
    "Tet.C13_cross_and_back",
    "Tet.C13_cross_rotates",
    "Tet.C13_cross_any_edge",
    "Tet.C13_consistent"
   ],
   "note": ""
  },
  {
   "property": "C14",
   "status": "proved",
   "theorems": [
    "Tet.C14_new"
   ],
   "note": ""
  },
  {
   "property": "C15",
   "status": "proved",
   "theorems": [
    "Tet.C15_positive"
   ],
   "note": ""
  },
  {
   "property": "C16",
   "status": "proved",
   "theorems": [
    "Tet.C16_edge_ring"
   ],
   "note": ""
  },
  {
   "property": "C17",
   "status": "proved",
   "theorems": [
    "Tet.C17_circular",
    "Tet.C17_cycles"
   ],
   "note": ""
  },
  {
   "property": "C18",
   "status": "proved",
   "theorems": [
    "Tet.C18_flip14",
    "Tet.C18_other_walkers_break"
   ],
   "note": ""
  },
  {
   "property": "C19",
   "status": "proved",
   "theorems": [
    "Tet.C19_flip23"
   ],
   "note": ""
  },
  {
   "property": "C20",
   "status": "proved",
   "theorems": [
    "Tet.C20_flip32"
   ],
   "note": ""
  },
  {
   "property": "C21",
   "status": "proved",
   "theorems": [
    "Tet.C21_flip32_undoes_flip23"
   ],
   "note": ""
  },
  {
   "property": "C22",
   "status": "proved",
   "theorems": [
    "Tet.C22_flip44"
   ],
   "note": ""
  },
  {
   "property": "C23",
   "status": "proved",
   "theorems": [
    "Tet.C23_vertices",
    "Tet.C23_flip14",
    "Tet.C23_flip23",
    "Tet.C23_flip32",
    "Tet.C23_flip44"
   ],
   "note": ""
  },
  {
   "property": "C24",
   "status": "proved",
   "theorems": [
    "Tet.C24_counts",
    "Tet.C24_euler",
    "Tet.C24_euler_new"
   ],
   "note": ""
  },
  {
   "property": "C25",
   "status": "proved",
   "theorems": [
    "Tet.C25_flip23",
    "Tet.C25_none_unchanged",
    "Tet.C25_flip32",
    "Tet.C25_guard23_insufficient",
    "Tet.C25_guard32_insufficient"
   ],
   "note": ""
  },
  {
   "property": "C26",
   "status": "proved",
   "theorems": [
    "Tet.C26_locks"
   ],
   "note": ""
  },
  {
   "property": "C27",
   "status": "proved",
   "theorems": [
    "Tet.C27_flip23",
    "Tet.C27_flip32"
   ],
   "note": ""
  },
  {
   "property": "C28",
   "status": "proved",
   "theorems": [
    "Tet.C28_flips",
    "Tet.C28_track_exact",
    "Tet.C28_index_exact",
    "Tet.C28_untrack"
   ],
   "note": ""
  },
  {
   "property": "C29",
   "status": "proved",
   "theorems": [
    "Tet.C29_tracked"
   ],
   "note": ""
  },
  {
   "property": "C30",
   "status": "proved",
   "theorems": [
    "Tet.C30_walkers",
    "Tet.C30_connected",
    "Tet.C30_all"
   ],
   "note": ""
  },
  {
   "property": "C31",
   "status": "proved",
   "theorems": [
    "Tet.C31_walkers",
    "Tet.C31_targets"
   ],
   "note": ""
  },
  {
   "property": "C32",
   "status": "proved",
   "theorems": [
    "Tet.C32_targets",
    "Tet.C32_all"
   ],
   "note": ""
  },
  {
   "property": "C33",
   "status": "proved",
   "theorems": [
    "Tet.C33_edge",
    "Tet.C33_edge_all",
    "Tet.C33_tri",
    "Tet.C33_tet",
    "Tet.C33_tri_all",
    "Tet.C33_tet_all"
   ],
   "note": ""
  },
  {
   "property": "C34",
   "status": "proved",
   "theorems": [
    "Tet.C34_adjacent_tets",
    "Tet.C34_symmetric"
   ],
   "note": ""
  },
  {
   "property": "C35",
   "status": "proved",
   "theorems": [
    "Tet.C35_permute",
    "Tet.C35_solid",
    "Tet.C35_ghost",
    "Tet.C35_equal"
   ],
   "note": ""
  },
  {
   "property": "C36",
   "status": "proved",
   "theorems": [
    "Tet.C36_ghost",
    "Tet.C36_volume",
    "Tet.C36_centroid",
    "Tet.C36_flip14",
    "Tet.C36_flip23",
    "Tet.C36_flip32"
   ],
   "note": ""
  },
  {
   "property": "C37",
   "status": "proved",
   "theorems": [
    "Tet.C37_exact",
    "Tet.C37_coplanar",
    "Tet.C37_order"
   ],
   "note": ""
  },
  {
   "property": "C38",
   "status": "proved",
   "theorems": [
    "Tet.C38_exact",
    "Tet.C38_order",
    "Tet.C38_never"
   ],
   "note": ""
  },
  {
   "property": "C39",
   "status": "proved",
   "theorems": [
    "Tet.C39_walkers",
    "Tet.C39_ghost",
    "Tet.C39_solid"
   ],
   "note": ""
  },
  {
   "property": "C40",
   "status": "proved",
   "theorems": [
    "Tet.C40_walkers",
    "Tet.C40_value",
    "Tet.C40_ghost"
   ],
   "note": ""
  },
  {
   "property": "C41",
   "status": "proved",
   "theorems": [
    "Tet.C41_convex",
    "Tet.C41_start",
    "Tet.C41_leftover"
   ],
   "note": ""
  },
  {
   "property": "C42",
   "status": "proved",
   "theorems": [
    "Tet.C42_fill",
    "Tet.C42_returns"
   ],
   "note": ""
  },
  {
   "property": "C43",
   "status": "proved",
   "theorems": [
    "Tet.C43_vertices",
    "Tet.C43_few"
   ],
   "note": ""
  },
  {
   "property": "C44",
   "status": "proved",
   "theorems": [
    "Tet.C44_sort",
    "Tet.C44_empty"
   ],
   "note": ""
  },
  {
   "property": "C45",
   "status": "proved",
   "theorems": [
    "Tet.C45_balanced",
    "Tet.C45_depth_zero",
    "Tet.C45_index"
   ],
   "note": ""
  },
  {
   "property": "C46",
   "status": "proved",
   "theorems": [
    "Tet.C46_edge",
    "Tet.C46_tri",
    "Tet.C46_run",
    "Tet.C46_concave",
    "Tet.C46_orient",
    "Tet.C46_positive",
    "Tet.C46_none_changes"
   ],
   "note": ""
  },
  {
   "property": "C47",
   "status": "proved",
   "theorems": [
    "Tet.C47_outcome",
    "Tet.C47_exact",
    "Tet.C47_true",
    "Tet.C47_false",
    "Tet.C47_no_crossing",
    "Tet.C47_vertex_on_edge",
    "Tet.C47_untracked_panics"
   ],
   "note": ""
  },
  {
   "property": "C48",
   "status": "proved",
   "theorems": [
    "Tet.C48_outcome",
    "Tet.C48_exact",
    "Tet.C48_true",
    "Tet.C48_false"
   ],
   "note": ""
  },
  {
   "property": "C49",
   "status": "proved",
   "theorems": [
    "Tet.Plc.C49_edges",
    "Tet.Plc.C49_found",
    "Tet.Plc.C49_ids",
    "Tet.Plc.C49_keeps"
   ],
   "note": ""
  },
  {
   "property": "C50",
   "status": "proved",
   "theorems": [
    "Tet.Plc.C50_contents",
    "Tet.Plc.C50_values",
    "Tet.Plc.C50_faces"
   ],
   "note": ""
  },
  {
   "property": "C51",
   "status": "proved",
   "theorems": [
    "Tet.Plc.C51_lists",
    "Tet.Plc.C51_back",
    "Tet.Plc.C51_joined",
    "Tet.Plc.C51_isolated",
    "Tet.Plc.C51_isolated_twice",
    "Tet.Plc.C51_loop"
   ],
   "note": ""
  },
  {
   "property": "C52",
   "status": "proved",
   "theorems": [
    "Tet.Plc.C52_rejected",
    "Tet.Plc.C52_allowed"
   ],
   "note": ""
  },
  {
   "property": "C53",
   "status": "proved",
   "theorems": [
    "Tet.Plc.C53_order",
    "Tet.Plc.C53_lists",
    "Tet.Plc.C53_intersects",
    "Tet.Plc.C53_ok"
   ],
   "note": ""
  },
  {
   "property": "C54",
   "status": "proved",
   "theorems": [
    "Tet.Plc.C54_disjoint",
    "Tet.Plc.C54_once",
    "Tet.Plc.C54_either",
    "Tet.Plc.C54_twice"
   ],
   "note": ""
  },
  {
   "property": "C55",
   "status": "proved",
   "theorems": [
    "Tet.Plc.C55_invariant",
    "Tet.Plc.C55_fan",
    "Tet.Plc.C55_triangle",
    "Tet.Plc.C55_hull"
   ],
   "note": ""
  },
  {
   "property": "C56",
   "status": "proved",
   "theorems": [
    "Tet.C56_export"
   ],
   "note": ""
  },
  {
   "property": "C57",
   "status": "proved",
   "theorems": [
    "Tet.C57_symmetric",
    "Tet.C57_self",
    "Tet.C57_infinite",
    "Tet.C57_zero"
   ],
   "note": ""
  },
  {
   "property": "C58",
   "status": "proved",
   "theorems": [
    "Tet.C58_run",
    "Tet.C58_keeps",
    "Tet.C58_quality",
    "Tet.C58_rotated_skipped",
    "Tet.C58_stale_index"
   ],
   "note": ""
  },
  {
   "property": "C59",
   "status": "proved",
   "theorems": [
    "Tet.C59_exact",
    "Tet.C59_walkers"
   ],
   "note": ""
  },
  {
   "property": "C60",
   "status": "proved",
   "theorems": [
    "Tet.Plc.C60_boxes",
    "Tet.Plc.C60_ok"
   ],
   "note": ""
  },
  {
   "property": "C61",
   "status": "proved",
   "theorems": [
    "Tet.Plc.C61_plane",
    "Tet.Plc.C61_flat"
   ],
   "note": ""
  },
  {
   "property": "C62",
   "status": "proved",
   "theorems": [
    "Tet.C62_general",
    "Tet.C62_locks",
    "Tet.C62_triangle_swallowed"
   ],
   "note": ""
  },
  {
   "property": "C63",
   "status": "proved",
   "theorems": [
    "Tet.C63_insert",
    "Tet.C63_stored",
    "Tet.C63_public",
    "Tet.C63_sphere",
    "Tet.C63_beyond"
   ],
   "note": ""
  },
  {
   "property": "C64",
   "status": "proved",
   "theorems": [
    "Tet.C64_iff",
    "Tet.C64_accepts",
    "Tet.C64_guarantees",
    "Tet.C64_delaunay",
    "Tet.C64_not_consistent",
    "Tet.C64_missing_vertex"
   ],
   "note": ""
  },
  {
   "property": "C65",
   "status": "proved",
   "theorems": [
    "Tet.C65_outcome",
    "Tet.C65_none_missing"
   ],
   "note": ""
  },
  {
   "property": "C66",
   "status": "proved",
   "theorems": [
    "Tet.C66_outcome",
    "Tet.C66_locked"
   ],
   "note": ""
  },
  {
   "property": "C67",
   "status": "proved",
   "theorems": [
    "Tet.C67_trail",
    "Tet.C67_total",
    "Tet.C67_search"
   ],
   "note": ""
  },
  {
   "property": "C68",
   "status": "proved",
   "theorems": [
    "Tet.C68_edges",
    "Tet.C68_reach"
   ],
   "note": ""
  },
  {
   "property": "C69",
   "status": "proved",
   "theorems": [
    "Tet.C69_add",
    "Tet.C69_stored",
    "Tet.C69_public"
   ],
   "note": ""
  },
  {
   "property": "C70",
   "status": "proved",
   "theorems": [
    "Tet.C70_disjoint",
    "Tet.C70_cover"
   ],
   "note": ""
  },
  {
   "property": "C71",
   "status": "proved",
   "theorems": [
    "Tet.C71_unique",
    "Tet.C71_solid",
    "Tet.C71_ghost",
    "Tet.C71_order"
   ],
   "note": ""
  },
  {
   "property": "C72",
   "status": "proved",
   "theorems": [
    "Tet.C72_edges",
    "Tet.C72_tets",
    "Tet.C72_size"
   ],
   "note": ""
  },
  {
   "property": "C73",
   "status": "proved",
   "theorems": [
    "Tet.C73_build",
    "Tet.C73_tets",
    "Tet.C73_same"
   ],
   "note": ""
  },
  {
   "property": "C74",
   "status": "proved",
   "theorems": [
    "Tet.C74_flip",
    "Tet.C74_run",
    "Tet.C74_ready",
    "Tet.C74_edge",
    "Tet.C74_tri",
    "Tet.C74_edges",
    "Tet.C74_boundary",
    "Tet.C74_quality"
   ],
   "note": ""
  },
  {
   "property": "C75",
   "status": "proved",
   "theorems": [
    "Tet.C75_layers",
    "Tet.C75_criterion",
    "Tet.C75_points",
    "Tet.C75_delaunay",
    "Tet.C75_build",
    "Tet.C75_boundary"
   ],
   "note": ""
  },
  {
   "property": "C76",
   "status": "proved",
   "theorems": [
    "Tet.C76_search",
    "Tet.C76_edge",
    "Tet.C76_star"
   ],
   "note": ""
  },
  {
   "property": "C77",
   "status": "proved",
   "theorems": [
    "Tet.C77_edge",
    "Tet.C77_edges"
   ],
   "note": ""
  },
  {
   "property": "C78",
   "status": "proved",
   "theorems": [
    "Tet.C78_search",
    "Tet.C78_tri"
   ],
   "note": ""
  },
  {
   "property": "C79",
   "status": "proved",
   "theorems": [
    "Tet.C79_tri",
    "Tet.C79_boundary",
    "Tet.C79_build",
    "Tet.C79_panics",
    "Tet.C79_dent"
   ],
   "note": ""
  },
  {
   "property": "C80",
   "status": "proved",
   "theorems": [
    "Tet.C80_insert"
   ],
   "note": ""
  },
  {
   "property": "C81",
   "status": "proved",
   "theorems": [
    "Tet.C81_points",
    "Tet.C81_order",
    "Tet.C81_mid",
    "Tet.C81_not_closest"
   ],
   "note": ""
  },
  {
   "property": "C82",
   "status": "proved",
   "theorems": [
    "Tet.C82_recover"
   ],
   "note": ""
  },
  {
   "property": "C83",
   "status": "proved",
   "theorems": [
    "Tet.C83_points",
    "Tet.C83_all"
   ],
   "note": ""
  },
  {
   "property": "C84",
   "status": "proved",
   "theorems": [
    "Tet.C84_close",
    "Tet.C84_near",
    "Tet.C84_ghost",
    "Tet.C84_sliver",
    "Tet.C84_walkers"
   ],
   "note": ""
  },
  {
   "property": "C85",
   "status": "proved",
   "theorems": [
    "Tet.C85_normal"
   ],
   "note": ""
  },
  {
   "property": "C86",
   "status": "proved",
   "theorems": [
    "Tet.C86_time",
    "Tet.C86_too_late",
    "Tet.C86_never"
   ],
   "note": ""
  },
  {
   "property": "C87",
   "status": "proved",
   "theorems": [
    "Tet.C87_found",
    "Tet.C87_own"
   ],
   "note": ""
  },
  {
   "property": "C88",
   "status": "proved",
   "theorems": [
    "Tet.C88_cap",
    "Tet.C88_locks",
    "Tet.C88_fills"
   ],
   "note": ""
  },
  {
   "property": "C89",
   "status": "proved",
   "theorems": [
    "Tet.C89_shell",
    "Tet.C89_locks",
    "Tet.C89_fills"
   ],
   "note": ""
  },
  {
   "property": "C90",
   "status": "proved",
   "theorems": [
    "Tet.C90_hull"
   ],
   "note": ""
  },
  {
   "property": "C91",
   "status": "proved",
   "theorems": [
    "Tet.Plc.C91_vertices",
    "Tet.Plc.C91_edges",
    "Tet.Plc.C91_faces",
    "Tet.Plc.C91_panics"
   ],
   "note": ""
  },
  {
   "property": "C92",
   "status": "proved",
   "theorems": [
    "Tet.C92_region",
    "Tet.C92_ends",
    "Tet.C92_one_face"
   ],
   "note": ""
  },
  {
   "property": "C93",
   "status": "proved",
   "theorems": [
    "Tet.C93_recover",
    "Tet.C93_panics"
   ],
   "note": ""
  },
  {
   "property": "C94",
   "status": "proved",
   "theorems": [
    "Tet.C94_moved",
    "Tet.C94_sides",
    "Tet.C94_edge_handle"
   ],
   "note": ""
  }
 ]
}