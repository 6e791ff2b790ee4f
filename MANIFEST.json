{
 "claims": [
  {
   "property": "C01",
   "status": "proved",
   "theorems": [
    "Verif.Props.C01_lru_refines_spec",
    "Verif.Props.C01_lru_no_ub",
    "Verif.Props.C01_lru_bounded"
   ],
   "note": "Refinement to a timestamped map."
  },
  {
   "property": "C02",
   "status": "proved",
   "theorems": [
    "Verif.Props.C02_C03_string_table_refines_spec",
    "Verif.Props.C02_round_trip"
   ],
   "note": "Any hash function; NUL-free strings, assigned ids, data file up to 4 GB."
  },
  {
   "property": "C03",
   "status": "proved",
   "theorems": [
    "Verif.Props.C02_C03_string_table_refines_spec",
    "Verif.Props.C03_reopen_unobservable"
   ],
   "note": "Restarts are operations of the history."
  },
  {
   "property": "C04",
   "status": "partial",
   "theorems": [
    "Verif.Props.C04_string_table_partial",
    "Verif.Props.C04_unassigned_partial",
    "Verif.Props.C04_violated_nul",
    "Verif.Props.C04_violated_early_lookup"
   ],
   "note": "The code violates the full statement for strings with NUL and for ids which are asked for before they get their string; witnesses proved for every hash function. Ids which never get a string may be asked for."
  },
  {
   "property": "C05",
   "status": "partial",
   "theorems": [
    "Verif.Props.C05_crash_partial",
    "Verif.Props.C05_torn_index_reads_partial",
    "Verif.Props.C05_violated_torn_index",
    "Verif.Props.C05_violated_index_first"
   ],
   "note": "The code violates the full statement for torn index records and index-before-data; the rest is proved."
  },
  {
   "property": "C06",
   "status": "proved",
   "theorems": [
    "Verif.Props.C06_linearizable"
   ],
   "note": "All schedules of small steps; sequentially consistent memory under the mutex is assumed."
  },
  {
   "property": "C07",
   "status": "partial",
   "theorems": [
    "Verif.Props.C07_element_round_trip_partial",
    "Verif.Props.C07_concatenated_partial",
    "Verif.Props.C07_write_injective",
    "Verif.Props.C07_violated_65536",
    "Verif.Props.C07_refused"
   ],
   "note": "Round trip for all nested elements whose counts fit 16 bits; elements of unknown kind are refused at any depth; the truncation of larger counts is proved as a violation."
  },
  {
   "property": "C08",
   "status": "proved",
   "theorems": [
    "Verif.Props.C08_mesh_round_trip",
    "Verif.Props.C08_lengths",
    "Verif.Props.C08_second_trip_exact",
    "Verif.Props.C08_violated_nul_name"
   ],
   "note": "For every float conversion; names without NUL (the NUL case is proved to fail)."
  },
  {
   "property": "C56",
   "status": "partial",
   "theorems": [
    "Verif.Props.C56_bitmap_round_trip_partial",
    "Verif.Props.C56_violated_empty"
   ],
   "note": "The empty bitmap reads one uninitialised key: proved as a violation; all others round-trip."
  },
  {
   "property": "C09",
   "status": "proved",
   "theorems": [
    "Verif.Props.C09_tile_path_injective",
    "Verif.Props.C09_invalid_tiles_can_collide"
   ],
   "note": "The path determines directory, tile and extension for all valid tiles."
  },
  {
   "property": "C10",
   "status": "proved",
   "theorems": [
    "Verif.Props.C10_comparator_is_lexicographic",
    "Verif.Props.C10_strict_total_order"
   ],
   "note": ""
  },
  {
   "property": "C11",
   "status": "proved",
   "theorems": [
    "Verif.Props.C11_lod_range",
    "Verif.Props.C11_default_throws",
    "Verif.Props.C11_lods"
   ],
   "note": ""
  },
  {
   "property": "C12",
   "status": "proved",
   "theorems": [
    "Verif.Props.C12_coordinate_in_its_tile",
    "Verif.Props.C12_no_clamping",
    "Verif.Props.C12_owner"
   ],
   "note": "Over the reals; includes numerical bounds at the latitude limit."
  },
  {
   "property": "C13",
   "status": "partial",
   "theorems": [
    "Verif.Props.C13_visits_owners_partial",
    "Verif.Props.C13_no_duplicates",
    "Verif.Props.C13_invalid_box",
    "Verif.Props.C13_violated_border"
   ],
   "note": "Exact for the half-open ownership of tiles, lods 0..19; tiles only touched on their east or south border are not visited, proved as a violation."
  },
  {
   "property": "C14",
   "status": "proved",
   "theorems": [
    "Verif.Props.C14_expand_is_smallest_cover",
    "Verif.Props.C14_empty_box",
    "Verif.Props.C14_expand_order_independent",
    "Verif.Props.C14_expand_box",
    "Verif.Props.C14_intersects",
    "Verif.Props.C14_contains",
    "Verif.Props.C14_center",
    "Verif.Props.C14_violated_out_of_range"
   ],
   "note": "Any linearly ordered field."
  },
  {
   "property": "C59",
   "status": "partial",
   "theorems": [
    "Verif.Props.C59_enumerates",
    "Verif.Props.C59_refuses",
    "Verif.Props.C59_or_and_pointwise",
    "Verif.Props.C59_pointwise_partial",
    "Verif.Props.C59_reread_keeps_positions",
    "Verif.Props.C59_violated_xor",
    "Verif.Props.C59_violated_set_after_reread"
   ],
   "note": "Bit-level model of the run-length encoding. or/and exact without bound; xor exact below position 1048544 and proved wrong beyond; setting a position after reading back from disk is proved to corrupt the bitmap."
  },
  {
   "property": "C15",
   "status": "proved",
   "theorems": [
    "Verif.Props.C15_in_memory_store"
   ],
   "note": "Every history of saves, tile and text searches, hasData and erase."
  },
  {
   "property": "C18",
   "status": "partial",
   "theorems": [
    "Verif.Props.C18_text_search_partial",
    "Verif.Props.C18_never_fails",
    "Verif.Props.C18_violated_unmatched_or",
    "Verif.Props.C18_violated_only_not"
   ],
   "note": "Exact through tokenizer and compressed bitmaps when the query has an or- or and-word and, if both, an or-word occurs in the tile; the two excluded cases are proved violations."
  },
  {
   "property": "C16",
   "status": "partial",
   "theorems": [
    "Verif.Props.C16_persistent_store_partial",
    "Verif.Props.C16_same_as_in_memory_partial",
    "Verif.Props.C16_allowed_histories_partial",
    "Verif.Props.C16_violated_after_text_search",
    "Verif.Props.C16_violated_after_cancelled_search",
    "Verif.Props.C16_violated_hasData",
    "Verif.Props.C16_violated_garbage_key"
   ],
   "note": "Exact equality with the in-memory store for every history of saves, tile searches, erasures, flushes and restarts; the general theorem also covers text and cancelled searches while the files stand at the end. False as stated: text and cancelled searches leave the shared file positions in the middle, hasData is true after a search, an indeterminate bitmap key may hit a word. I/O errors are not modelled."
  },
  {
   "property": "C17",
   "status": "partial",
   "theorems": [
    "Verif.Props.C17_search_after_restart_partial",
    "Verif.Props.C17_violated_save_after_restart",
    "Verif.Props.C17_save_without_restart",
    "Verif.Props.C16_persistent_store_partial"
   ],
   "note": "Import into at most twelve tiles, restart, any text searches: exact answers; tile searches after restarts are exact by C16. False as stated: saving into a non-empty tile after a restart or cache eviction spoils its text index."
  },
  {
   "property": "C27",
   "status": "partial",
   "theorems": [
    "Verif.Props.C27_same_id",
    "Verif.Props.C27_leaves_keep_tags",
    "Verif.Props.C27_relation_keeps_tags",
    "Verif.Props.C27_inside_unchanged_partial",
    "Verif.Props.C27_apart_dropped",
    "Verif.Props.C27_points_in_tile",
    "Verif.Props.C27_violated_single_member",
    "Verif.Props.C27_violated_crossing_way"
   ],
   "note": "For every clipping library function (the library is a parameter). Fails for relations reduced to one member (tags of the member are lost) and for ways crossing a tile without a vertex in it (dropped); both proved. Unchanged-inside holds for relations with at least two members."
  },
  {
   "property": "C19",
   "status": "partial",
   "theorems": [
    "Verif.Props.C19_store_range_partial",
    "Verif.Props.C19_result_partial",
    "Verif.Props.C19_store_in_box_partial",
    "Verif.Props.C19_store_in_tile_partial",
    "Verif.Props.C19_once_per_tile",
    "Verif.Props.C19_no_coordinates",
    "Verif.Props.C19_violated_crossing_way"
   ],
   "note": "Exact set of tiles for all elements, ranges and styles over real coordinates; tile borders as in C13. The style provider is represented by three facts per lod, the clipping library by an arbitrary function."
  },
  {
   "property": "C20",
   "status": "partial",
   "theorems": [
    "Verif.Props.C20_dispatch_partial",
    "Verif.Props.C20_violated_unregistered"
   ],
   "note": "For every store implementation and history whose additions use registered keys. Adding under another key is undefined behaviour (null pointer), proved."
  },
  {
   "property": "C21",
   "status": "partial",
   "theorems": [
    "Verif.Props.C21_cancelled_tile_partial",
    "Verif.Props.C21_cancelled_tile_persistent_partial",
    "Verif.Props.C21_import_only_in_tile",
    "Verif.Props.C21_reachable",
    "Verif.Props.C21_violated_tile_lost",
    "Verif.Props.C21_violated_range",
    "Verif.Props.C21_range_always_fails"
   ],
   "note": "Other tiles and keys are as before and nothing of the import is visible; fails for data the tile had before the import (erased) and for lod ranges (throws, and the imported data remain), both proved."
  },
  {
   "property": "C22",
   "status": "partial",
   "theorems": [
    "Verif.Props.C22_only_complete_partial",
    "Verif.Props.C22_violated_empty_file"
   ],
   "note": "A hit after any allowed history (crashes, write errors, cancellations, interleaved builds of different tiles) means that a healthy build of this file ended without cancellation. Missing: a file whose status byte never reached the disk is compared with an uninitialised variable (violation proved)."
  },
  {
   "property": "C23",
   "status": "partial",
   "theorems": [
    "Verif.Props.C23_C24_replay_partial",
    "Verif.Props.C23_violated_precision",
    "Verif.Props.C23_damaged"
   ],
   "note": "Records of unknown kind in cache files are refused. Elements come back exactly, meshes in single precision; the violation for other doubles is proved."
  },
  {
   "property": "C24",
   "status": "partial",
   "theorems": [
    "Verif.Props.C23_C24_replay_partial",
    "Verif.Props.C24_violated_overlap",
    "Verif.Props.C24_violated_foreign_end",
    "Verif.Props.C24_violated_after_exception"
   ],
   "note": "Builds of different tiles do not disturb each other in any interleaving. Two overlapping builds of the same tile use a destroyed stream (violation proved), also without threads after an exception."
  },
  {
   "property": "C25",
   "status": "proved",
   "theorems": [
    "Verif.Props.C25_clean_and_exclusive"
   ],
   "note": "All call sequences in which builders release only meshes they hold."
  },
  {
   "property": "C26",
   "status": "partial",
   "theorems": [
    "Verif.Props.C26_life_cycle",
    "Verif.Props.C26_at_most_once",
    "Verif.Props.C26_only_styled",
    "Verif.Props.C26_nothing_lost_partial",
    "Verif.Props.C26_all_built",
    "Verif.Props.C26_exactly_partial",
    "Verif.Props.C26_violated_same_id",
    "Verif.Props.C26_violated_clipped"
   ],
   "note": "Every tile build: life cycle of builders, at most once per id, only styled elements, nothing lost when ids are unique. False as stated: a node and a way sharing an id are one element for the builder, and a clipped element present in two stores is built twice; both proved."
  },
  {
   "property": "C28",
   "status": "partial",
   "theorems": [
    "Verif.Props.C28_cascade_partial",
    "Verif.Props.C28_identifier_partial",
    "Verif.Props.C28_canvas_partial",
    "Verif.Props.C28_hasStyle",
    "Verif.Props.C28_violated_id_order",
    "Verif.Props.C28_violated_canvas_condition",
    "Verif.Props.C28_kind",
    "Verif.Props.C28_accepted",
    "Verif.Props.C28_refused",
    "Verif.Props.C28_reason",
    "Verif.Props.C28_text"
   ],
   "note": "Last applicable declaration wins for every stylesheet and element (tags sorted, keys named by the stylesheet not repeated), and for the canvas if canvas selectors have no conditions. Stylesheets are accepted exactly if the names, operations and ids of their selectors are understood. False as stated: among rules naming one element id the first wins, and conditions of canvas selectors are ignored; both proved."
  },
  {
   "property": "C29",
   "status": "partial",
   "theorems": [
    "Verif.Props.C29_match_partial",
    "Verif.Props.C29_operators",
    "Verif.Props.C29_violated_unsorted",
    "Verif.Props.C29_violated_repeated_key"
   ],
   "note": "Every operator, for sorted tags in which keys named by the stylesheet are not repeated (other keys, such as the marks of parts of buildings, may be). Unsorted tags from the C API and repeated keys fail, both proved."
  },
  {
   "property": "C30",
   "status": "partial",
   "theorems": [
    "Verif.Props.C30_value_change_partial",
    "Verif.Props.C30_condition_partial",
    "Verif.Props.C30_violated_kind"
   ],
   "note": "For every stylesheet and every edit replacing one value by another in any declarations (rules with conditions, for ids, for the canvas), or giving a condition another operation or value in any selectors: equal tags mean equal styles everywhere, unless the two texts collide under the hash. False as stated: the kind of element is not part of the hashed text, proved."
  },
  {
   "property": "C31",
   "status": "partial",
   "theorems": [
    "Verif.Props.C31_numeric_partial",
    "Verif.Props.C31_numeric_total",
    "Verif.Props.C31_concatenates_partial",
    "Verif.Props.C31_unsupported_reported_partial",
    "Verif.Props.C31_no_ub_partial",
    "Verif.Props.C31_violated_missing_tag",
    "Verif.Props.C31_violated_empty_value"
   ],
   "note": "From the text of the expression through the grammar to the value, for all expressions, spacings and tag sets having the named tags. An absent tag silently reads as an unassigned string, an empty text read as number is out of bounds; both proved."
  },
  {
   "property": "C32",
   "status": "proved",
   "theorems": [
    "Verif.Props.C32_pack_unpack",
    "Verif.Props.C32_clamped",
    "Verif.Props.C32_sum_clamped"
   ],
   "note": "All colors and all integers."
  },
  {
   "property": "C33",
   "status": "partial",
   "theorems": [
    "Verif.Props.C33_between_partial",
    "Verif.Props.C33_before_first",
    "Verif.Props.C33_at_stop",
    "Verif.Props.C33_violated_rounding",
    "Verif.Props.C33_violated_after_last",
    "Verif.Props.C33_violated_repeated_last",
    "Verif.Props.C33_violated_far_after_last"
   ],
   "note": "Any ordered field with floor instead of doubles. Truncation may put a channel one below both stops; after the last stop the color is extrapolated, up to undefined behaviour; all proved."
  },
  {
   "property": "C47",
   "status": "partial",
   "theorems": [
    "Verif.Props.C47_hex",
    "Verif.Props.C47_not_hex",
    "Verif.Props.C47_short_rejected_partial",
    "Verif.Props.C47_unknown_name",
    "Verif.Props.C47_known_name",
    "Verif.Props.C47_violated_short"
   ],
   "note": "All strings; the color table is transcribed. Zero, two or four hex digits read behind the end of the string when operands are evaluated left to right, proved."
  },
  {
   "property": "C34",
   "status": "partial",
   "theorems": [
    "Verif.Props.C34_way_or_area_partial",
    "Verif.Props.C34_violated_missing_node",
    "Verif.Props.C34_violated_repeated_closing"
   ],
   "note": "Proved, over any ordered field and for a way whose nodes are all present: it becomes an area exactly when it has more than three coordinates and first and last coincide within the code's tolerance, otherwise a way with the coordinates of its nodes; an area has the last point removed and is not clockwise. Violated: a missing node is a null pointer access, and a closing point given twice stays in the area."
  },
  {
   "property": "C37",
   "status": "proved",
   "theorems": [
    "Verif.Props.C37_merge",
    "Verif.Props.C37_sorts_exist"
   ],
   "note": "mergeTags yields strictly increasing keys, only tags of either list, and every key of both, for any correct sorting routine. Which value wins for a key in both lists is not claimed: std::sort is not stable."
  },
  {
   "property": "C36",
   "status": "partial",
   "theorems": [
    "Verif.Props.C36_rings_partial",
    "Verif.Props.C36_closed_ways",
    "Verif.Props.C36_areas_partial",
    "Verif.Props.C36_areas_total",
    "Verif.Props.C36_simple",
    "Verif.Props.C36_orientation",
    "Verif.Props.C36_relation_simple",
    "Verif.Props.C36_relation_rings_partial",
    "Verif.Props.C36_relation_incomplete",
    "Verif.Props.C36_contains_east",
    "Verif.Props.C36_assembled",
    "Verif.Props.C36_violated_open_way",
    "Verif.Props.C36_violated_mutual"
   ],
   "note": "Proved, from the members of a relation to its areas: one closed outer line and closed inner lines give one area each; otherwise every ring is closed and consists of exactly the segments of its ways; nothing is made if a member is missing; ways left over form one open chain, one area per ring with the right orientation. With the test for rings which the code uses, in exact arithmetic, rings never contain each other and an outer ring is always found. Violated: an open chain is dropped silently; if the test let two rings contain each other, a null pointer would be used (whether rounding can do this is open). Assumes that the point comparison distinguishes the points in the data."
  },
  {
   "property": "C35",
   "status": "partial",
   "theorems": [
    "Verif.Props.C35_terminates_partial",
    "Verif.Props.C35_once_partial",
    "Verif.Props.C35_violated_cycle",
    "Verif.Props.C35_violated_building",
    "Verif.Props.C35_violated_twice"
   ],
   "note": "Proved: without cycles of relations resolution ends for every order, and plain relations have each member at most once in member order. Violated: a ring of three relations and a building naming itself recurse without end (for every depth), and a building with an outline reached twice gets its parts twice."
  },
  {
   "property": "C61",
   "status": "partial",
   "theorems": [
    "Verif.Props.C61_members_partial",
    "Verif.Props.C61_violated_same_id"
   ],
   "note": "Proved for plain relations without cycles whose members have different numbers: exactly the present members which do not name the relation. Violated: members of different types with the same number, the later one is lost."
  },
  {
   "property": "C38",
   "status": "proved",
   "theorems": [
    "Verif.Props.C38_comparator",
    "Verif.Props.C38_rewriting",
    "Verif.Props.C38_deterministic"
   ],
   "note": "For every grammar, start word, number of generations and random generator which picks one of the given weights. The probabilities of the choices are not modelled."
  },
  {
   "property": "C39",
   "status": "partial",
   "theorems": [
    "Verif.Props.C39_section_partial",
    "Verif.Props.C39_no_underflow",
    "Verif.Props.C39_violated_bracket_production",
    "Verif.Props.C39_violated_style"
   ],
   "note": "Proved: a bracketed section restores state and stack, and balanced systems never restore from an empty stack in any generation, if brackets have no productions themselves. Violated: a production for a bracket underflows the stack, and the appearance in use is not restored."
  },
  {
   "property": "C54",
   "status": "partial",
   "theorems": [
    "Verif.Props.C54_isometry",
    "Verif.Props.C54_compose",
    "Verif.Props.C54_inverse",
    "Verif.Props.C54_unit",
    "Verif.Props.C54_euler_unit",
    "Verif.Props.C54_angle",
    "Verif.Props.C54_violated_rotate"
   ],
   "note": "Proved over every field: rounding of doubles is not modelled. Violated: the in-place function rotate is not the product."
  },
  {
   "property": "C62",
   "status": "partial",
   "theorems": [
    "Verif.Props.C62_frame_partial",
    "Verif.Props.C62_violated_pitch",
    "Verif.Props.C62_violated_planar"
   ],
   "note": "Proved for programs without pitch and roll over every field. Violated: pitch and roll turn about the same axis as left and right, so no program ever leaves the plane, and the vectors do not stay perpendicular."
  },
  {
   "property": "C63",
   "status": "partial",
   "theorems": [
    "Verif.Props.C63_slerp_partial",
    "Verif.Props.C63_atan2_exists",
    "Verif.Props.C63_violated_far",
    "Verif.Props.C63_violated_close"
   ],
   "note": "Proved over the real numbers for angles up to 90 degrees which are not very small. Violated: for larger angles both quaternions are negated instead of one, and for almost equal ones the result is not unit."
  },
  {
   "property": "C40",
   "status": "partial",
   "theorems": [
    "Verif.Props.C40_between_partial",
    "Verif.Props.C40_no_overflow",
    "Verif.Props.C40_violated_few"
   ],
   "note": "For every list of at least four heights and every tile not smaller than the grid in units of 1e-7 degrees, and every coordinate not south-west of the tile corner, the elevation is computed without reading outside of the heights, lies between the heights of the corners of the grid cell which contains the coordinate and equals the height at a grid node. The differences of coordinates fit into 32 bits. One to three heights are undefined behaviour (conversion of infinity). Over an ordered field, rounding of double is not modelled."
  },
  {
   "property": "C41",
   "status": "partial",
   "theorems": [
    "Verif.Props.C41_srtm_partial",
    "Verif.Props.C41_keys",
    "Verif.Props.C41_key_order",
    "Verif.Props.C41_violated_signed",
    "Verif.Props.C41_violated_unsigned",
    "Verif.Props.C41_violated_name",
    "Verif.Props.C41_violated_south",
    "Verif.Props.C41_refused"
   ],
   "note": "At least one degree north and east, with the files of the tile present and well formed, the height is the bilinear interpolation of the four samples around the coordinate of the file which covers it, whatever cells are in memory. Needs that the low bytes of the file are below 128 where char is signed, or the high bytes where it is unsigned: otherwise 200 is read as -56, respectively -1 as 65535. Next to the equator and the zero meridian and in the south and west another file is read; in the south memory behind the data is read. Missing cells and cells of another size are reported."
  },
  {
   "property": "C42",
   "status": "partial",
   "theorems": [
    "Verif.Props.C42_split_partial",
    "Verif.Props.C42_append",
    "Verif.Props.C42_contour_partial",
    "Verif.Props.C42_slope"
   ],
   "note": "Split points are points of the segment, start at its start, end within epsilon of its end, are strictly ordered along it, and every grid line strictly between neighbours is within epsilon of the first of them. C42_slope: the excluded slopes below epsilon do not occur between integer points. C42_append: a segment which starts where the result ends continues it without repeating the common point. C42_contour_partial: the points of a whole contour go around it edge by edge, from the first vertex back to within epsilon of it, past every vertex, split by the grid also around the corners. Missing: rounding of double, grid values by repeated addition."
  },
  {
   "property": "C43",
   "status": "proved",
   "theorems": [
    "Verif.Props.C43_well_formed",
    "Verif.Props.C43_triangle",
    "Verif.Props.C43_defined",
    "Verif.Props.C43_violated_back"
   ],
   "note": "For every mesh built by any sequence of operations (polygon, plane, triangle, texture, copy, clear, change of heights). Assumes that the triangle library returns triangles between the points it returns. C43_violated_back: the back side option of triangles, which no caller sets, gives triangles with wrong corners (the mesh stays well formed)."
  },
  {
   "property": "C44",
   "status": "proved",
   "theorems": [
    "Verif.Props.C44_map",
    "Verif.Props.C44_write",
    "Verif.Props.C44_copy"
   ],
   "note": "The map of every built mesh consists of records with sorted, bounded ends; writing covers all coordinates and gives the new ones the new texture; copying keeps the textures of both meshes."
  },
  {
   "property": "C45",
   "status": "partial",
   "theorems": [
    "Verif.Props.C45_closed_partial",
    "Verif.Props.C45_violated_empty"
   ],
   "note": "For every list of non-empty contours and holes: each outer contour, and each hole which is kept, is one closed cycle over exactly its points (closing point dropped), and every point belongs to exactly one contour. C45_violated_empty: an empty contour is undefined behaviour."
  },
  {
   "property": "C46",
   "status": "partial",
   "theorems": [
    "Verif.Props.C46_smallest_partial",
    "Verif.Props.C46_contains",
    "Verif.Props.C46_polygon_partial",
    "Verif.Props.C46_violated_negative"
   ],
   "note": "The default rectangle always contains the points, and is the smallest if some point has a positive x and some a positive y. C46_violated_negative: if all x are negative, xMax is the smallest positive double (numeric_limits::min) and the rectangle is not the smallest."
  },
  {
   "property": "C57",
   "status": "proved",
   "theorems": [
    "Verif.Props.C57_forest"
   ],
   "note": "For every well formed region and tree mesh, frequency and chunk size. The generator of the tree and the elevation are parameters."
  },
  {
   "property": "C64",
   "status": "partial",
   "theorems": [
    "Verif.Props.C64_border_partial",
    "Verif.Props.C64_complete",
    "Verif.Props.C64_violated_near"
   ],
   "note": "A point is reported exactly if its distance to the line of a side times the length of the side is below 1e-8, so every point of the border is reported. C64_violated_near: in tiles of level 19 points 1e-5 degrees inside are reported as well."
  },
  {
   "property": "C48",
   "status": "partial",
   "theorems": [
    "Verif.Props.C48_sphere_partial",
    "Verif.Props.C48_violated_level"
   ],
   "note": "Any level above zero gives the base icosahedron divided exactly once: 20*4 (12*4) triangles, which is right for level 1. C48_violated_level: level 0 gives nothing and every level from 2 on the same 80 triangles; dome roofs and spherical facades request level 2."
  },
  {
   "property": "C49",
   "status": "partial",
   "theorems": [
    "Verif.Props.C49_dense_partial",
    "Verif.Props.C49_node",
    "Verif.Props.C49_way",
    "Verif.Props.C49_relation",
    "Verif.Props.C49_violated_offset",
    "Verif.Props.C49_violated_raw"
   ],
   "note": "Simple nodes, way references and relation members are decoded to the encoded values; dense nodes if the block has no offsets. C49_violated_offset: a latitude offset is added once more for each further dense node. C49_violated_raw: an uncompressed blob is read from the bytes of the enclosing message. Protobuf wire decoding and zlib are not modelled; coordinates are rationals instead of doubles."
  },
  {
   "property": "C50",
   "status": "partial",
   "theorems": [
    "Verif.Props.C50_parts_partial",
    "Verif.Props.C50_tables",
    "Verif.Props.C50_relation",
    "Verif.Props.C50_violated_read",
    "Verif.Props.C50_violated_start",
    "Verif.Props.C50_decreasing"
   ],
   "note": "The polygon is split in exactly its parts, whatever value is behind the part table; every proper table is covered. C50_violated_read: that value is read for every polygon whose last part has two or more vertices. C50_violated_start: a table not beginning with 0 stores in a part which does not exist. C50_decreasing: shapes whose parts decrease are refused."
  },
  {
   "property": "C65",
   "status": "partial",
   "theorems": [
    "Verif.Props.C65_divided",
    "Verif.Props.C65_sphere",
    "Verif.Props.C65_cylinder_partial",
    "Verif.Props.C65_violated_noise"
   ],
   "note": "Spheres of every level and cylinders of every segment count are closed; cones if the second size is exactly zero. C65_violated_noise: with vertex noise (an option no caller sets) neighbouring triangles come apart. Coordinates are elements of a field instead of doubles."
  },
  {
   "property": "C66",
   "status": "partial",
   "theorems": [
    "Verif.Props.C66_line_partial",
    "Verif.Props.C66_point",
    "Verif.Props.C66_violated_parts",
    "Verif.Props.C66_violated_empty"
   ],
   "note": "A line of one part is delivered with all vertices in order as area or way, a point as node. C66_violated_parts: lines of several parts are dropped. C66_violated_empty: a line without vertices is undefined behaviour."
  },
  {
   "property": "C51",
   "status": "partial",
   "theorems": [
    "Verif.Props.C51_reported_partial",
    "Verif.Props.C51_classified",
    "Verif.Props.C51_violated_lods",
    "Verif.Props.C51_violated_elevation",
    "Verif.Props.C51_violated_lengths"
   ],
   "note": "With meaningful arguments the request is made and its exception reported exactly once; every nonempty list of coordinates is exactly one of node, way and area. C51_violated_lods: for lods outside the supported range an exception escapes. C51_violated_elevation: exceptions of the elevation query for a quad key escape. C51_violated_lengths: odd numbers of tag strings or vertices and no vertices are undefined behaviour."
  },
  {
   "property": "C52",
   "status": "partial",
   "theorems": [
    "Verif.Props.C52_store_partial",
    "Verif.Props.C52_cache_partial",
    "Verif.Props.C52_violated_lods"
   ],
   "note": "The directories of tiles exist for lods 1 to 16. C52_violated_lods: lods 17 to 19 are accepted but have no directory."
  },
  {
   "property": "C53",
   "status": "proved",
   "theorems": [
    "Verif.Props.C53_split",
    "Verif.Props.C53_endsWith",
    "Verif.Props.C53_fileName",
    "Verif.Props.C53_format"
   ],
   "note": "lexicalCast and parseDouble are not modelled."
  },
  {
   "property": "C55",
   "status": "proved",
   "theorems": [
    "Verif.Props.C55_point",
    "Verif.Props.C55_none"
   ],
   "note": "Over an ordered field instead of doubles."
  },
  {
   "property": "C67",
   "status": "partial",
   "theorems": [
    "Verif.Props.C67_exported_partial",
    "Verif.Props.C67_violated_relation"
   ],
   "note": "Nodes, ways and areas are delivered completely, with valid strings. C67_violated_relation: a relation is exported as single point at the origin."
  },
  {
   "property": "C68",
   "status": "proved",
   "theorems": [
    "Verif.Props.C68_triangle",
    "Verif.Props.C68_even_odd",
    "Verif.Props.C68_hole",
    "Verif.Props.C68_contains"
   ],
   "note": "Also rings contain each other by the same rule, and the point of a hole is inside of it. Over an ordered field instead of doubles."
  },
  {
   "property": "C58",
   "status": "partial",
   "theorems": [
    "Verif.Props.C58_features_partial",
    "Verif.Props.C58_defined",
    "Verif.Props.C58_refused",
    "Verif.Props.C58_violated_height",
    "Verif.Props.C58_violated_direction",
    "Verif.Props.C58_violated_repeated",
    "Verif.Props.C58_violated_dot",
    "Verif.Props.C58_violated_sign"
   ],
   "note": "Over the property tree of the document (reading JSON text is not modelled). Every feature is delivered with id, sorted tags and its geometry, for documents with different collection names without dots and positions of two numbers. Every tree is delivered or refused with an exception, and refused if a feature is not one. Violations: positions with height and names with dots end the import with an exception; lines are delivered in the opposite direction; of collections with the same name the first is delivered twice; the sign of ids is lost."
  },
  {
   "property": "C60",
   "status": "partial",
   "theorems": [
    "Verif.Props.C60_parse_partial",
    "Verif.Props.C60_rejected_brace",
    "Verif.Props.C60_rejected_empty",
    "Verif.Props.C60_rejected_zoom",
    "Verif.Props.C60_violated_trailing",
    "Verif.Props.C60_violated_condition",
    "Verif.Props.C60_violated_zoom",
    "Verif.Props.C60_violated_space",
    "Verif.Props.C60_violated_semicolon",
    "Verif.Props.C60_violated_import",
    "Verif.Props.C60_rejected_missing",
    "Verif.Props.C60_rejected_file",
    "Verif.Props.C60_rejected_import",
    "Verif.Props.C60_violated_missing",
    "Verif.Props.C60_rejected_open"
   ],
   "note": "Texts written for a stylesheet, with any gaps and comments and nested imports, are parsed to it (some characters at the begin of words are not covered); selectors without brace, rules without declarations and zooms without number are rejected; so are stylesheets which name missing or rejected textures and L-systems, or import rejected stylesheets. Violations: imports of missing files are ignored; text which begins with no keyword and selectors without condition are ignored with everything which follows; zooms above 255 are taken modulo 256; a space before an operation becomes part of the key; a missing semicolon makes the following rules part of the value; self import is an endless recursion. C60_rejected_open: references which are not closed are rejected."
  },
  {
   "property": "C69",
   "status": "partial",
   "theorems": [
    "Verif.Props.C69_distance",
    "Verif.Props.C69_symmetric",
    "Verif.Props.C69_zero",
    "Verif.Props.C69_offset_partial",
    "Verif.Props.C69_world_north",
    "Verif.Props.C69_world_east",
    "Verif.Props.C69_world_east_near",
    "Verif.Props.C69_between",
    "Verif.Props.C69_scaled",
    "Verif.Props.C69_violated_radius"
   ],
   "note": "Over the real numbers. The distance is the central angle of the two points times a radius between the polar and the equatorial one. Offsets in metres are right up to the ratio of the radii (0.34 percent), metres north and, up to a fortieth of the circle of latitude, metres east up to 0.2 percent. Points between two points and lengths scaled to the size of a tile are right. Violated: the distance takes the radius at the difference of the latitudes, so an offset at a pole is always longer than given, proved."
  },
  {
   "property": "C70",
   "status": "partial",
   "theorems": [
    "Verif.Props.C70_metres_in_box",
    "Verif.Props.C70_metres",
    "Verif.Props.C70_percent",
    "Verif.Props.C70_plain",
    "Verif.Props.C70_text",
    "Verif.Props.C70_absent",
    "Verif.Props.C70_violated_blank",
    "Verif.Props.C70_violated_expression"
   ],
   "note": "Over the real numbers with lexical_cast as a parameter; in a box metres are right up to the ratio of the radii of the earth. Violated: a blank before the dimension gives zero, and expressions with a dimension are not evaluated; both proved from what lexical_cast refuses."
  },
  {
   "property": "C71",
   "status": "partial",
   "theorems": [
    "Verif.Props.C71_turns_partial",
    "Verif.Props.C71_turn_angle",
    "Verif.Props.C71_pitch_roll_angle",
    "Verif.Props.C71_scales",
    "Verif.Props.C71_forward",
    "Verif.Props.C71_there_and_back",
    "Verif.Props.C71_appearance",
    "Verif.Props.C71_violated_pitch",
    "Verif.Props.C71_violated_roll"
   ],
   "note": "Over any field, given sine and cosine of half the angle, for perpendicular unit vectors. Violated for pitch and roll: the axis is not normalised, so the opposite command does not lead back, proved with a witness."
  },
  {
   "property": "C72",
   "status": "partial",
   "theorems": [
    "Verif.Props.C72_every_entry_once",
    "Verif.Props.C72_last_node",
    "Verif.Props.C72_violated_way_twice"
   ],
   "note": "For all files of nodes and ways without repeated ids where every way comes after its nodes; relations are C35 and C36. A way which comes twice, first closed and then open, is handed on twice, proved. A way with a missing node is undefined behaviour, see C34."
  },
  {
   "property": "C73",
   "status": "proved",
   "theorems": [
    "Verif.Props.C73_plane",
    "Verif.Props.C73_triangle",
    "Verif.Props.C73_polygon",
    "Verif.Props.C73_copy",
    "Verif.Props.C73_texture",
    "Verif.Props.C73_unique",
    "Verif.Props.C73_paints_shows",
    "Verif.Props.C73_paints_plane",
    "Verif.Props.C73_paints_triangle",
    "Verif.Props.C73_paints_polygon",
    "Verif.Props.C73_paints_texture",
    "Verif.Props.C73_paints_copy",
    "Verif.Props.C73_paints_unique"
   ],
   "note": "Over any numbers with an addition. The triangles of the triangle library, texture scales, colors and elevations are parameters. The option backSide of addTriangle (never used) is C43_violated_back."
  },
  {
   "property": "C74",
   "status": "partial",
   "theorems": [
    "Verif.Props.C74_meshes_partial",
    "Verif.Props.C74_violated_way",
    "Verif.Props.C74_violated_node",
    "Verif.Props.C74_violated_empty"
   ],
   "note": "Equality of what the callback gets with the meshes of the parts, errors included, for all elements whose multipolygons consist of areas. A way or node in a multipolygon throws and stops the tile (C74_violated_way); a relation without any building delivers an empty mesh (C74_violated_empty). Style values are a parameter."
  },
  {
   "property": "C75",
   "status": "partial",
   "theorems": [
    "Verif.Props.C75_part_partial",
    "Verif.Props.C75_violated_roof"
   ],
   "note": "For flat, pyramidal and no roofs and flat facades over an ordered field, with the texture of every face; the first ring is an outline; holes without a point inside are left out. Unknown types of roofs read the end of a map (C75_violated_roof). Round, mansard and skillion roofs with flat facades are C86, C87 and C88; domes, cylinders and spheres are C89."
  },
  {
   "property": "C76",
   "status": "partial",
   "theorems": [
    "Verif.Props.C76_faces",
    "Verif.Props.C76_part_partial",
    "Verif.Props.C76_building_partial",
    "Verif.Props.C76_roof_partial",
    "Verif.Props.C76_violated_clockwise",
    "Verif.Props.C76_violated_hole"
   ],
   "note": "If the triangles of the library have the rings as border. Parts without a floor lack only the floor (C76_faces). C76_roof_partial: with any roof whose border are the rings (C86 to C88). Rings which run clockwise are turned inside out (C76_violated_clockwise); pyramidal roofs above holes leave gaps (C76_violated_hole)."
  },
  {
   "property": "C77",
   "status": "partial",
   "theorems": [
    "Verif.Props.C77_value",
    "Verif.Props.C77_has_partial",
    "Verif.Props.C77_ignore",
    "Verif.Props.C77_violated_order",
    "Verif.Props.C77_violated_default"
   ],
   "note": "Value lookup and the mark are proved for all sorted tags. hasTag is true for a missing key if the value is the default (C77_violated_default); unsorted tags are not found (C77_violated_order)."
  },
  {
   "property": "C78",
   "status": "partial",
   "theorems": [
    "Verif.Props.C78_icosahedron",
    "Verif.Props.C78_sphere_partial",
    "Verif.Props.C78_cylinder_count",
    "Verif.Props.C78_cylinder_points",
    "Verif.Props.C78_noise"
   ],
   "note": "Over an ordered field with a square root instead of doubles. The icosahedron is regular, all triangles of a sphere of level one or more are images of outward triangles of the unit sphere under the requested scaling and translation; levels above one are not refined further (C48_violated_level). Cylinders: number of triangles, all corners. Missing: rounding; that the rotations used for the rings are right is C54."
  },
  {
   "property": "C79",
   "status": "proved",
   "theorems": [
    "Verif.Props.C79_bounded",
    "Verif.Props.C79_off",
    "Verif.Props.C79_lattice",
    "Verif.Props.C79_continuous",
    "Verif.Props.C79_color",
    "Verif.Props.C79_gradient"
   ],
   "note": "Over an ordered field (continuity over the real numbers) instead of doubles. Coordinates times frequency have to fit into an int; otherwise the conversion is undefined behaviour in the model."
  },
  {
   "property": "C80",
   "status": "partial",
   "theorems": [
    "Verif.Props.C80_delivered_partial",
    "Verif.Props.C80_spacing",
    "Verif.Props.C80_violated_empty",
    "Verif.Props.C80_violated_step"
   ],
   "note": "Over an ordered field with an exact square root instead of doubles. Generators of single trees and lamps (see C90 for what they draw), elevations and distances are parameters. Ways without coordinates read their first one (C80_violated_empty), a step of zero is an undefined conversion (C80_violated_step); areas get nothing. Lamps beside a way leave out the first and the last spot. Copies keep colors and textures."
  },
  {
   "property": "C81",
   "status": "partial",
   "theorems": [
    "Verif.Props.C81_wall_partial",
    "Verif.Props.C81_pieces",
    "Verif.Props.C81_closed",
    "Verif.Props.C81_faces",
    "Verif.Props.C81_violated_length"
   ],
   "note": "Over an ordered field with an exact square root instead of doubles. Pieces need a direction longer than epsilon; length and gap of zero are an undefined conversion (C81_violated_length). Neighbouring boxes are not joined. Colors and textures of all faces are those of the look."
  },
  {
   "property": "C82",
   "status": "partial",
   "theorems": [
    "Verif.Props.C82_delivered_partial",
    "Verif.Props.C82_violated_ground"
   ],
   "note": "Over an ordered field with an exact square root instead of doubles. Pillars along a way stand too high by the elevation of the first coordinate (C82_violated_ground); the partial theorem says so, everything else holds, including colors and textures. Steps and lengths have to be positive. Exceptions from styles, which leave the style set, are not modelled."
  },
  {
   "property": "C83",
   "status": "partial",
   "theorems": [
    "Verif.Props.C83_no_gaps",
    "Verif.Props.C83_one_piece",
    "Verif.Props.C83_violated_direction",
    "Verif.Props.C83_ways_apart"
   ],
   "note": "Relative to a contract of the clipping library (difference, union and tidying enclose the right points by the nonzero rule), which a concrete library over grid cells meets; points in paths below the area tolerance are excluded. No gaps holds for all regions; no overlaps needs regions which do not run around the point in the wrong direction: otherwise windings cancel and two pieces overlap (C83_violated_direction)."
  },
  {
   "property": "C84",
   "status": "partial",
   "theorems": [
    "Verif.Props.C84_owner",
    "Verif.Props.C84_violated_area",
    "Verif.Props.C84_violated_empty_name"
   ],
   "note": "Same contract and restrictions as C83; std::sort is a parameter with its contract. Among elements without layer smaller areas do not win as intended, since their area is never computed (C84_violated_area); a layer with an empty name is undefined behaviour (C84_violated_empty_name)."
  },
  {
   "property": "C85",
   "status": "partial",
   "theorems": [
    "Verif.Props.C85_meshes",
    "Verif.Props.C85_tolerance",
    "Verif.Props.C85_violated_texture",
    "Verif.Props.C85_unknown_extras"
   ],
   "note": "Over an ordered field instead of doubles; clipping, triangulation (indices in range), colors, noise, elevation and the trees of a forest are parameters. The textures hold if no piece with its own mesh has walls: such walls are in the common mesh, where nothing has their texture (C85_violated_texture). C85_unknown_extras: extras which are not known are refused."
  },
  {
   "property": "C86",
   "status": "partial",
   "theorems": [
    "Verif.Props.C86_round_partial",
    "Verif.Props.C86_holes_partial",
    "Verif.Props.C86_arch",
    "Verif.Props.C86_border",
    "Verif.Props.C86_library",
    "Verif.Props.C86_violated_corners",
    "Verif.Props.C86_violated_trapezoid"
   ],
   "note": "Over an ordered field instead of doubles; square root, sine, cosine and the rotation by an interpolated quaternion are assumed to be exact (C86_library: over the real numbers they are, with the quaternions of the code). With more than four corners the roof does not cover the outline (C86_violated_corners), above a trapezoid it leaves the outline (C86_violated_trapezoid)."
  },
  {
   "property": "C87",
   "status": "partial",
   "theorems": [
    "Verif.Props.C87_mansard_partial",
    "Verif.Props.C87_flat_partial",
    "Verif.Props.C87_border",
    "Verif.Props.C87_violated_twist"
   ],
   "note": "Over an ordered field with an exact square root instead of doubles; one outline; the offset operation of the clipping library is a parameter. The first corner of its result has to be next to a corner in the first half of the outline, otherwise the sides are twisted (C87_violated_twist). Several rings are handed to the library as one path (not covered)."
  },
  {
   "property": "C88",
   "status": "partial",
   "theorems": [
    "Verif.Props.C88_skillion_partial",
    "Verif.Props.C88_flat_partial",
    "Verif.Props.C88_heights",
    "Verif.Props.C88_border",
    "Verif.Props.C88_violated_outlines"
   ],
   "note": "Over an ordered field with exact square root, sine and cosine instead of doubles; one outline whose corners are the points of the triangle library, in this order; the corner in the back must not be on the line through the front side (the code only excludes its first corner). Degrees are multiples of 22.5 without fractions, in coordinates of longitude and latitude. With several outlines everything is drawn once for each of them, with walls between them (C88_violated_outlines)."
  },
  {
   "property": "C89",
   "status": "partial",
   "theorems": [
    "Verif.Props.C89_part_partial",
    "Verif.Props.C89_violated_dome",
    "Verif.Props.C89_violated_sphere",
    "Verif.Props.C89_violated_west"
   ],
   "note": "Over an ordered field with exact square root, sine and cosine (addition theorems) instead of doubles; roofs are none, flat, pyramidal or domes, facades flat, cylinders or spheres; each ring has a point east of Greenwich and one north of the equator, holes are in the rectangle of the outline. A dome sticks out below the top of the walls, whatever its height (C89_violated_dome), a sphere has its middle at the bottom of the part (C89_violated_sphere), and around outlines west of Greenwich the cylinder reaches to the zero meridian (C89_violated_west)."
  },
  {
   "property": "C90",
   "status": "partial",
   "theorems": [
    "Verif.Props.C90_appearances",
    "Verif.Props.C90_lists",
    "Verif.Props.C90_generate_partial",
    "Verif.Props.C90_outwards",
    "Verif.Props.C90_sphere",
    "Verif.Props.C90_state_partial",
    "Verif.Props.C90_violated_restore",
    "Verif.Props.C90_frame_partial",
    "Verif.Props.C90_turn",
    "Verif.Props.C90_node_partial",
    "Verif.Props.C90_refused"
   ],
   "note": "Shape of cylinders and cones for states with perpendicular unit vectors, which holds without pitch and roll (C90_frame_partial, see C62). Over an ordered field with exact square root, sine and cosine instead of doubles; the random selection of alternatives and the lookup of gradients and textures are parameters; the text of the L-system is not parsed. Cylinders smaller than epsilon in both width and length may be without cap. Going back to a saved state does not bring back its appearance (C90_violated_restore), so the appearance of the state is shown without such commands only (C90_state_partial). C90_refused: too short lists of styles end with an exception."
  },
  {
   "property": "C91",
   "status": "partial",
   "theorems": [
    "Verif.Props.C91_read",
    "Verif.Props.C91_refused",
    "Verif.Props.C91_unique",
    "Verif.Props.C91_violated_blank",
    "Verif.Props.C91_violated_unknown",
    "Verif.Props.C91_violated_comment",
    "Verif.Props.C91_violated_word"
   ],
   "note": "C91_read describes exactly which texts are read as which L-system, for all texts, and C91_refused that all others are refused. Partial as the described language deviates from the claim (the four C91_violated theorems), and as numbers are exact rationals instead of doubles, inf and nan are left out, and characters are code points instead of bytes."
  },
  {
   "property": "C92",
   "status": "partial",
   "theorems": [
    "Verif.Props.C92_read",
    "Verif.Props.C92_refused",
    "Verif.Props.C92_unique",
    "Verif.Props.C92_all",
    "Verif.Props.C92_provider",
    "Verif.Props.C92_violated_range",
    "Verif.Props.C92_violated_rest",
    "Verif.Props.C92_violated_last",
    "Verif.Props.C92_violated_second"
   ],
   "note": "For all texts. Partial as the code deviates from the claim (the four C92_violated theorems), and as the default rectangle of an atlas, whose conversion to 16 bits is undefined for every atlas, is replaced by four arbitrary numbers (parameter outside); the result is no texture for all of them. Characters are code points instead of bytes."
  },
  {
   "property": "C93",
   "status": "partial",
   "theorems": [
    "Verif.Props.C93_read",
    "Verif.Props.C93_sound",
    "Verif.Props.C93_delivered",
    "Verif.Props.C93_violated_escape",
    "Verif.Props.C93_violated_atomic",
    "Verif.Props.C93_violated_way",
    "Verif.Props.C93_violated_relation",
    "Verif.Props.C93_violated_attribute",
    "Verif.Props.C93_violated_comment",
    "Verif.Props.C93_violated_empty",
    "Verif.Props.C93_violated_lost"
   ],
   "note": "For all texts. Partial as the code deviates from the claim (the C93_violated theorems), as numbers are exact instead of doubles, and as inf and nan, which Spirit reads, are refused in the model. Characters are code points instead of bytes. C93_read asks for the usual begin of a file (Head)."
  },
  {
   "property": "C94",
   "status": "partial",
   "theorems": [
    "Verif.Props.C94_history_partial",
    "Verif.Props.C94_build_partial",
    "Verif.Props.C94_disabled",
    "Verif.Props.C94_kept_partial",
    "Verif.Props.C94_again_partial",
    "Verif.Props.C94_violated_data",
    "Verif.Props.C94_violated_elevation",
    "Verif.Props.C94_violated_exception"
   ],
   "note": "for every builder and every history in which builds of the same tile do not overlap and recorded builds do not throw. The builder is a parameter, visits are single steps. Violated: a file is never refreshed, so later data and other elevation data are ignored (kept_partial in general, two witnesses), and an exception of a builder leaves the tile broken."
  },
  {
   "property": "C95",
   "status": "partial",
   "theorems": [
    "Verif.Props.C95_import_partial",
    "Verif.Props.C95_refused_partial",
    "Verif.Props.C95_violated_missing"
   ],
   "note": "from the characters of the text to the answers of tile searches, for all three kinds of import, all tiles and all previous contents. Partial: files with relations are covered only by the refused case and by the violation; no number twice; places on the globe; exact numbers; stores in memory (the refused case: every kind of store); the token is not cancelled. The clipping library, the string table and the decisions of the stylesheet are parameters."
  },
  {
   "property": "C96",
   "status": "partial",
   "theorems": [
    "Verif.Props.C96_relations_partial",
    "Verif.Props.C96_hidden",
    "Verif.Props.C96_multipolygon",
    "Verif.Props.C96_violated_order",
    "Verif.Props.C96_violated_outline"
   ],
   "note": "C96_relations_partial: one element for every entry, as the specification Becomes says, the same for every order of the relations. Missing: files excluded by Sound (cycles: C35_violated_cycle; buildings and multipolygons with missing members which other relations name: C35_violated_twice; outer areas which building relations name: C96_violated_order), and lines which form no areas; exact numbers; stack deep enough. C96_hidden: what is hidden. C96_multipolygon: closed lines, by C36. C96_violated_outline: an outline without parts is not drawn."
  },
  {
   "property": "C97",
   "status": "partial",
   "theorems": [
    "Verif.Props.C97_import_partial"
   ],
   "note": "Partial: relations which ResolveSpec.Sound excludes (cycles, buildings or multipolygons named by other relations with missing members, outer areas of untagged multipolygons which are parts of buildings), ids used twice, and a stack which is too small are not covered; the stores are in memory."
  },
  {
   "property": "C98",
   "status": "partial",
   "theorems": [
    "Verif.Props.C98_load_partial"
   ],
   "note": "Composition of C60, C28, C97 and C26 for in-memory stores: from the texts of stylesheet and file to the calls of builders. Missing: two styled elements with the same id in a tile (false, see C26), files whose relations cannot be resolved (C96), texts which are not well formed, persistent stores."
  },
  {
   "property": "C99",
   "status": "partial",
   "theorems": [
    "Verif.Props.C99_points_partial",
    "Verif.Props.C99_texture",
    "Verif.Props.C99_east_partial",
    "Verif.Props.C99_south_partial",
    "Verif.Props.C99_color_of_place_partial",
    "Verif.Props.C99_wall_partial",
    "Verif.Props.C99_triangle_partial",
    "Verif.Props.C99_violated_wall_color"
   ],
   "note": "Over real numbers, for coordinates whose products with frequencies are in the range of int and gradients which end at 1 or later or have at most one color. False for walls: their color depends on the height of the ground (violation proved). Missing: both sides of triangles with a back side (see C73), gradients which end before 1 (see C33), rounding, the triangle library, points on a border of tiles which the library does not mark."
  },
  {
   "property": "C100",
   "status": "partial",
   "theorems": [
    "Verif.Props.C100_restart_partial",
    "Verif.Props.C100_load_partial",
    "Verif.Props.C100_violated_cancelled"
   ],
   "note": "Import of the text of an OSM file into a store on disk, restart, registration in any order, any number of tile searches; second theorem: up to the calls of builders. Missing: coordinates which are not doubles, elements with more than 65535 tags, points or members, tiles with 4 GiB of data, words whose number is the one found in memory which is not set, text searches in between (all of C16), and what C97 and C98 leave open (unresolvable relations, ids which are there twice). I/O errors are not modelled. C100_violated_cancelled: a cancelled import for levels of detail into a store on disk always fails, as ranges cannot be erased."
  },
  {
   "property": "C101",
   "status": "partial",
   "theorems": [
    "Verif.Props.C101_parallel_partial",
    "Verif.Props.C101_different_tiles_partial",
    "Verif.Props.C101_violated_nothing_found",
    "Verif.Props.C101_violated_wrong_element"
   ],
   "note": "proved for all histories C16 covers, all threads, all orders of steps in which no thread begins a tile while another one searches it, in particular whenever the threads have different tiles: results are right, nothing fails, and a thread which gets enough steps finishes. Violated when two threads search one tile at once: they share the positions of its files (PersistentElementStore.cpp:148-164), so a search finds nothing, or an element with the id of another one. Missing: saves, text searches, erasures and cancelled searches at the same time; memory is sequentially consistent, each read is one step"
  },
  {
   "property": "C102",
   "status": "partial",
   "theorems": [
    "Verif.Props.C102_find_partial",
    "Verif.Props.C102_import_partial",
    "Verif.Props.C102_found_partial",
    "Verif.Props.C102_words_partial",
    "Verif.Props.C102_violated_twice"
   ],
   "note": "Stores in memory. What is found is, up to order, what the tiles of box and levels show, filtered by words and boxes; after an import it is what was found before and what is seen of the file. Nothing on the map that is stored unclipped in one of the levels is missed. Violated: an element is found once for every tile and level which stores it. Left out: what C18 leaves out (queries whose or-words occur in no element of a tile while there are and-words, more than 1048544 elements of a tile with not-words, words with equal numbers), what C97 leaves out, elements without points; the words of imported elements are those of the tags if the string table gives the texts back (C02)."
  },
  {
   "property": "C103",
   "status": "partial",
   "theorems": [
    "Verif.Props.C103_same_partial",
    "Verif.Props.C103_import_partial",
    "Verif.Props.C103_cut_partial",
    "Verif.Props.C103_damaged",
    "Verif.Props.C103_violated_cut",
    "Verif.Props.C103_violated_empty",
    "Verif.Props.C103_violated_buffer"
   ],
   "note": "Importing a PBF file is the same function of all stores as importing an XML file of the same map. Parameters: decoding of protobuf messages and zlib. Missing: dense nodes in blocks with offsets and uncompressed blocks (C49 violated), maps whose ways come before their nodes, rounding of sums of doubles. Files which are cut behind the size of a part and files with a damaged part are refused. Violated: a cut inside of the size, an empty or missing file are imported without error; a block of more than 32 MiB is written behind the buffer."
  },
  {
   "property": "C104",
   "status": "partial",
   "theorems": [
    "Verif.Props.C104_import_partial",
    "Verif.Props.C104_violated_refused",
    "Verif.Props.C104_text"
   ],
   "note": "The import of documents which are as they should be is proved. Missing: what C58 excludes (heights, collections of the same name or with dots), stores on disk, reading the JSON text. Violated: a document with a tree which is no feature (MultiPoint, GeometryCollection, positions with heights) is refused, but everything before this tree stays in the stores."
  },
  {
   "property": "C105",
   "status": "partial",
   "theorems": [
    "Verif.Props.C105_import_partial",
    "Verif.Props.C105_violated_refused",
    "Verif.Props.C105_pair",
    "Verif.Props.C105_violated_dropped",
    "Verif.Props.C105_violated_polygon"
   ],
   "note": "The import is proved for points, lines of one part and, if the number which is read behind the part table exists, polygons. Missing: logical fields, stores on disk, the shapefile library. Violated: a record which cannot be read leaves all records before it in the stores; lines of several parts and points together are left out silently; polygons read behind the part table."
  },
  {
   "property": "C106",
   "status": "partial",
   "theorems": [
    "Verif.Props.C106_told_partial",
    "Verif.Props.C106_returned_partial",
    "Verif.Props.C106_violated_order"
   ],
   "note": "Told: what was there and the new element, for all tiles and states of stores in memory, for tags in the order of their numbers, strings which the table gives back (C02) and ids which are not there twice in the tile (C26). Violated for tags in another order: nothing is stored, no error (C106_violated_order). Builders of the library do not throw in the model; numbers are exact."
  },
  {
   "property": "C107",
   "status": "partial",
   "theorems": [
    "Verif.Props.C107_read_once_partial",
    "Verif.Props.C107_file_ignored",
    "Verif.Props.C107_failed",
    "Verif.Props.C107_no_number",
    "Verif.Props.C107_missing",
    "Verif.Props.C107_stale"
   ],
   "note": "For all histories. Reading is shown for stylesheets of the grammar of C60. C107_stale: after a change of the file the old declarations are still told. The model has the calls registerStylesheet, registerInMemoryStore, addDataInElement, addDataIn* for OSM XML and getDataByQuadKey."
  },
  {
   "property": "C108",
   "status": "partial",
   "theorems": [
    "Verif.Props.C108_answers_partial",
    "Verif.Props.C108_no_race",
    "Verif.Props.C108_sequential",
    "Verif.Props.C108_alone",
    "Verif.Props.C108_live",
    "Verif.Props.C108_violated_race",
    "Verif.Props.C108_heights_partial",
    "Verif.Props.C108_refused"
   ],
   "note": "All schedules of all threads. Up to the first data race the answers are right; there is no race if the keys are in the table or have no value, or if calls do not overlap. Violated: whenever a thread asks for a key which is to be filled in while another thread asks for any key, some schedule races (undefined behaviour), as the first find is done without the lock. The SRTM provider, which fills in several cells at once, is not covered. Tiles without file or without heights are reported."
  },
  {
   "property": "C109",
   "status": "partial",
   "theorems": [
    "Verif.Props.C109_stops_partial",
    "Verif.Props.C109_single_partial",
    "Verif.Props.C109_nothing",
    "Verif.Props.C109_shown",
    "Verif.Props.C109_threads_partial",
    "Verif.Props.C109_surface_partial",
    "Verif.Props.C109_violated_unit",
    "Verif.Props.C109_violated_px",
    "Verif.Props.C109_violated_fraction",
    "Verif.Props.C109_violated_rgb",
    "Verif.Props.C109_violated_prefix",
    "Verif.Props.C109_violated_digit"
   ],
   "note": "For all gradients written with colors of six digits or by name and percentages of one to three digits with the sign. Violated for percentages without sign (the last digit is lost), px, fractions, rgb(...), three digits and, alone, names which begin with gradient. The conversion of digits to numbers (boost) is a hypothesis; numbers are exact. C109_violated_digit: one digit without the sign is refused."
  },
  {
   "property": "C110",
   "status": "partial",
   "theorems": [
    "Verif.Props.C110_text_partial",
    "Verif.Props.C110_has_data_partial",
    "Verif.Props.C110_found_partial",
    "Verif.Props.C110_violated_pieces"
   ],
   "note": "After an element was added, a search for words tells what it told before and the matching parts of the element, each once per tile, and hasData answers by what is to be seen. Missing: tags which are not in the order of the string table (C106_violated_order), queries with both and- and or-words, elements which the tile cuts into pieces (stored as relations without tags and not found, C110_violated_pieces), stores on disk, cancellation."
  },
  {
   "property": "C111",
   "status": "partial",
   "theorems": [
    "Verif.Props.C111_style_partial",
    "Verif.Props.C111_meshes_partial",
    "Verif.Props.C111_file_partial",
    "Verif.Props.C111_unique_partial",
    "Verif.Props.C111_violated_no_roof"
   ],
   "note": "From the text of a stylesheet and an OSM file to the meshes of buildings: the style which the builder reads is the one which the rules describe, and the callback gets one mesh per building with walls, roof and floor at these heights with these looks, without gaps if the parts are above the ground (in any order of the elements). Missing: roofs other than flat, pyramidal and none, walls other than flat ones, texts of declarations which cannot be understood, what C98 leaves open; gradients and textures are a function of the declared texts. Violated: an area with building: true and no roof-type reads the end iterator of the map of roofs."
  },
  {
   "property": "C112",
   "status": "partial",
   "theorems": [
    "Verif.Props.C112_style_partial",
    "Verif.Props.C112_ground_partial",
    "Verif.Props.C112_file_partial"
   ],
   "note": "Missing: gradients and textures are a parameter of the model, the clipping library is a contract (C83), points in paths which are too small, and what C28, C31, C70, C84, C85 and C98 leave open. If no element names the terrain builder, it is never called and there is no ground at all (said in C112_file_partial); an empty name of a layer is undefined behaviour (C84_violated_empty_name)."
  },
  {
   "property": "C113",
   "status": "partial",
   "theorems": [
    "Verif.Props.C113_paint_partial",
    "Verif.Props.C113_meshes_partial",
    "Verif.Props.C113_ground_partial",
    "Verif.Props.C113_file_partial",
    "Verif.Props.C113_violated_gradient",
    "Verif.Props.C113_violated_no_color"
   ],
   "note": "Legible colors (a name or six hexadecimal digits, or a gradient of them whose last stop is in the second half, for the ground at the end) and numbers of textures which fit in 16 bits. Buildings with flat or pyramidal roofs and flat walls, as in C111 (other roofs and walls: C117_colors_partial). Where a text cannot be read, the code throws (C113_violated_no_color); the composed model then has a look without color, so nothing is claimed. Violated: gradients of several colors on a building show one mixed color."
  },
  {
   "property": "C114",
   "status": "partial",
   "theorems": [
    "Verif.Props.C114_style_partial",
    "Verif.Props.C114_meshes_partial",
    "Verif.Props.C114_colors_partial",
    "Verif.Props.C114_file_partial",
    "Verif.Props.C114_violated_no_length"
   ],
   "note": "Over the real numbers. Styles which cannot be read, and lengths below a centimetre, are left open; elevations are a parameter. Pillars along a way stand too high (C82_violated_ground). Colors need a legible text whose last color is in the second half of the gradient. Walls without length and gap, and pillars without step are undefined (C114_violated_no_length)."
  },
  {
   "property": "C115",
   "status": "partial",
   "theorems": [
    "Verif.Props.C115_style_partial",
    "Verif.Props.C115_meshes_partial",
    "Verif.Props.C115_file_partial",
    "Verif.Props.C115_violated_gradient",
    "Verif.Props.C115_unknown"
   ],
   "note": "Over the real numbers; elevations and the random generator are parameters. Styles which cannot be read, L-systems which cannot be drawn (unknown words, brackets without partner, scale zero) and steps below a centimetre are left open, as are texture coordinates. Nothing is said about turns after pitch and roll commands, which leave direction and right not perpendicular (C62_violated_pitch). Colors with commas cannot be declared (C115_violated_gradient). C115_unknown: names of L-systems which the stylesheet does not have are refused."
  },
  {
   "property": "C116",
   "status": "partial",
   "theorems": [
    "Verif.Props.C116_answers_partial",
    "Verif.Props.C116_no_race",
    "Verif.Props.C116_sequential",
    "Verif.Props.C116_live",
    "Verif.Props.C116_violated_race",
    "Verif.Props.C116_violated_retry",
    "Verif.Props.C116_heights_partial"
   ],
   "note": "All schedules of all threads, any tiles and files. Up to the first data race each answer is the cell as its file gives it or the exception of a cell of the tile, and certainly the cell if all files of the tile are good; there is no race if the cells asked for are loaded or if calls do not overlap. Violated: if a thread has to load a cell while another one asks for anything some schedule races (undefined behaviour), as the first find is done without the lock; and a call refused because of another cell of the tile is answered when it is repeated. Heights: north and east of one degree, and sample values which survive the decoding (C41). Memory exhaustion and changes of files are not modelled."
  },
  {
   "property": "C117",
   "status": "partial",
   "theorems": [
    "Verif.Props.C117_part_partial",
    "Verif.Props.C117_meshes_partial",
    "Verif.Props.C117_file_partial",
    "Verif.Props.C117_closed",
    "Verif.Props.C117_colors_partial",
    "Verif.Props.C117_colors_file_partial"
   ],
   "note": "Each roof (none, flat, pyramidal, dome, round, mansard, skillion) with each kind of walls (flat, cylinder, sphere), from part to mesh to file and stylesheet, with the colors and textures of C113 (C117_colors_*). Missing: mansard and skillion roofs above several rings, outlines outside RoofAble and FacadeAble, gaps of round roofs and curved walls, texts of a stylesheet which cannot be understood, doubles"
  },
  {
   "property": "C118",
   "status": "partial",
   "theorems": [
    "Verif.Props.C118_json_partial",
    "Verif.Props.C118_json_restart_partial",
    "Verif.Props.C118_shape_partial",
    "Verif.Props.C118_shape_restart_partial",
    "Verif.Props.C118_json_houses_partial"
   ],
   "note": "From the tree of a GeoJSON text or the records of a shape file with a stylesheet to builder calls, in memory and on disk with a restart; buildings of GeoJSON to meshes with colors. Missing: what C104, C105, C16 and C26 leave open (refused files, ids which are there twice, sizes of files), properties which are there twice, doubles"
  },
  {
   "property": "C119",
   "status": "partial",
   "theorems": [
    "Verif.Props.C119_load_partial",
    "Verif.Props.C119_restart_partial",
    "Verif.Props.C119_houses_partial"
   ],
   "note": "C98, C100 and C117 with hypotheses about the texts only: that the tags of resolved relations, members, marked parts of buildings and clipped pieces can be read is derived from the strings of the file. Missing: files where an element has a key twice, strings which the table does not give back (C04), ids which are there twice, unresolvable relations, and what C100 and C117 leave open."
  },
  {
   "property": "C120",
   "status": "proved",
   "theorems": [
    "Verif.Props.C120_dictionary",
    "Verif.Props.C120_threads",
    "Verif.Props.C120_words"
   ],
   "note": "Any hash function, any history with restarts, any schedule of threads; NUL-free strings, data file up to 4 GB, ids which are assigned before they are asked for or never (otherwise see C04). Sequentially consistent memory under the mutex is assumed for threads."
  },
  {
   "property": "C121",
   "status": "partial",
   "theorems": [
    "Verif.Props.C121_scene_partial",
    "Verif.Props.C121_osm_restart_partial",
    "Verif.Props.C121_json_restart_partial",
    "Verif.Props.C121_shape_restart_partial"
   ],
   "note": "Houses, ground, barriers, trees and lamps of one load of a tile, from OSM (XML, and PBF files with the same content), GeoJSON and shape files in stores on disk after a restart. Missing: what C112, C114, C115, C117, C118 and C119 leave open (declarations which cannot be understood, shapes the generators cannot draw, keys or ids which are there twice, rounding of floating point numbers)."
  },
  {
   "property": "C122",
   "status": "partial",
   "theorems": [
    "Verif.Props.C122_ids_partial",
    "Verif.Props.C122_osm_partial",
    "Verif.Props.C122_tagged_ids_partial",
    "Verif.Props.C122_tagged_osm_partial"
   ],
   "note": "The condition of C121 that no id is there twice is derived from the text of the file: no id is used twice, none is zero, relations have tags. If every rule of the stylesheet asks for a tag and none is for a given id, only things with tags need different ids. Missing: files where two things with tags share an id (the code loses one of them, see C26_violated theorems), and what C121 leaves open."
  },
  {
   "property": "C123",
   "status": "partial",
   "theorems": [
    "Verif.Props.C123_resolved_partial",
    "Verif.Props.C123_osm_partial"
   ],
   "note": "What C97, C119, C121 and C122 assume about relations (ResolveSpec.Sound) follows from a condition on the written file; that areas of multipolygons are assembled needs no condition on their ways. Missing: relations which contain multipolygons other than those of closed ways with one outer way or buildings with an outline, nodes or missing members, rounding of double in the test for rings, what C121 leaves open."
  }
 ]
}