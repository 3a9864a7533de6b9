{
 "claims": [
  {
   "property": "C01",
   "status": "partial",
   "theorems": [
    "H2d.Props.C01_through_partial",
    "H2d.Props.C01_symmetric",
    "H2d.Props.C01_defined",
    "H2d.Props.C01_false"
   ],
   "note": "Order of the points and failures proved in full. Incidence: unless the slope is strictly between 0 and nullDenom; false in that case (C01_false)."
  },
  {
   "property": "C02",
   "status": "proved",
   "theorems": [
    "H2d.Props.C02_intersection",
    "H2d.Props.C02_constructor"
   ],
   "note": "Product and constructor."
  },
  {
   "property": "C03",
   "status": "proved",
   "theorems": [
    "H2d.Props.C03_metric",
    "H2d.Props.C03_scale",
    "H2d.Props.C03_coordinates"
   ],
   "note": ""
  },
  {
   "property": "C04",
   "status": "proved",
   "theorems": [
    "H2d.Props.C04_shortest"
   ],
   "note": "Greatest lower bound, attained."
  },
  {
   "property": "C05",
   "status": "proved",
   "theorems": [
    "H2d.Props.C05_lines",
    "H2d.Props.C05_through",
    "H2d.Props.C05_distance"
   ],
   "note": ""
  },
  {
   "property": "C06",
   "status": "partial",
   "theorems": [
    "H2d.Props.C06_line_partial",
    "H2d.Props.C06_segment_partial",
    "H2d.Props.C06_false"
   ],
   "note": "Unless the second coefficient of the line is strictly between 0 and nullDenom; false in that case (C06_false)."
  },
  {
   "property": "C07",
   "status": "proved",
   "theorems": [
    "H2d.Props.C07_points"
   ],
   "note": ""
  },
  {
   "property": "C08",
   "status": "proved",
   "theorems": [
    "H2d.Props.C08_circle"
   ],
   "note": "Sound and complete."
  },
  {
   "property": "C09",
   "status": "proved",
   "theorems": [
    "H2d.Props.C09_angle"
   ],
   "note": ""
  },
  {
   "property": "C10",
   "status": "proved",
   "theorems": [
    "H2d.Props.C10_order",
    "H2d.Props.C10_equality",
    "H2d.Props.C10_not_transitive"
   ],
   "note": "Order: any linearly ordered coordinates. C10_not_transitive records that == is not an equivalence."
  },
  {
   "property": "C11",
   "status": "proved",
   "theorems": [
    "H2d.Props.C11_product",
    "H2d.Props.C11_throws"
   ],
   "note": "Any matrices, any points, including points at infinity; exact condition of failure."
  },
  {
   "property": "C12",
   "status": "proved",
   "theorems": [
    "H2d.Props.C12_inverse",
    "H2d.Props.C12_throws",
    "H2d.Props.C12_determ",
    "H2d.Props.C12_refused"
   ],
   "note": "Two-sided, any points; exact condition of failure; C12_refused shows an invertible matrix that is refused."
  },
  {
   "property": "C13",
   "status": "partial",
   "theorems": [
    "H2d.Props.C13_incidence_partial",
    "H2d.Props.C13_throws",
    "H2d.Props.C13_false",
    "H2d.Props.C13_write_false"
   ],
   "note": "Any history without init/element write/transpose (false with these: C13_false, C13_write_false); the resulting line must not have a first coefficient strictly between 0 and nullDenom (see C01_false)."
  },
  {
   "property": "C14",
   "status": "proved",
   "theorems": [
    "H2d.Props.C14_add",
    "H2d.Props.C14_chain",
    "H2d.Props.C14_chain_ok",
    "H2d.Props.C14_set"
   ],
   "note": "Chains of any length; such chains never throw on a normalised homography. Rotation: for any pair of numbers used as cosine and sine."
  },
  {
   "property": "C15",
   "status": "partial",
   "theorems": [
    "H2d.Props.C15_values",
    "H2d.Props.C15_symmetric",
    "H2d.Props.C15_reflexive",
    "H2d.Props.C15_scale_partial",
    "H2d.Props.C15_false"
   ],
   "note": "Reflexive and symmetric for all objects. Scale: histories without element writes or assignment of non normalised objects; false otherwise (C15_false)."
  },
  {
   "property": "C16",
   "status": "proved",
   "theorems": [
    "H2d.Props.C16_points",
    "H2d.Props.C16_lines",
    "H2d.Props.C16_polyline"
   ],
   "note": "Points, lines (with the cache), polylines, rectangles. Segments: see C17."
  },
  {
   "property": "C17",
   "status": "partial",
   "theorems": [
    "H2d.Props.C17_default",
    "H2d.Props.C17_ordered_partial",
    "H2d.Props.C17_false"
   ],
   "note": "Any history of constructors, set, translate, moveTo, copies. False after a conversion from an oriented segment (C17_false)."
  },
  {
   "property": "C18",
   "status": "proved",
   "theorems": [
    "H2d.Props.C18_constructors",
    "H2d.Props.C18_equality"
   ],
   "note": ""
  },
  {
   "property": "C19",
   "status": "proved",
   "theorems": [
    "H2d.Props.C19_shortest",
    "H2d.Props.C19_region"
   ],
   "note": "Distance and region, for all segments with distinct ends."
  },
  {
   "property": "C20",
   "status": "partial",
   "theorems": [
    "H2d.Props.C20_middle",
    "H2d.Props.C20_pointAt_partial",
    "H2d.Props.C20_splitAt_partial",
    "H2d.Props.C20_false"
   ],
   "note": "Split in the middle in full. getPointAt and split(d): except for slopes strictly between 0 and nullDenom; false in that case (C20_false)."
  },
  {
   "property": "C21",
   "status": "partial",
   "theorems": [
    "H2d.Props.C21_parallel_partial",
    "H2d.Props.C21_false"
   ],
   "note": "Except for slopes within nullDenom of the axes and for distances below the null distance; for these C21_false."
  },
  {
   "property": "C22",
   "status": "partial",
   "theorems": [
    "H2d.Props.C22_sound_partial",
    "H2d.Props.C22_complete_partial",
    "H2d.Props.C22_symmetric",
    "H2d.Props.C22_reversed",
    "H2d.Props.C22_interSymm",
    "H2d.Props.C22_false",
    "H2d.Props.C22_equal_false"
   ],
   "note": "Symmetry in full. Soundness and completeness: except for slopes strictly between 0 and nullDenom (C22_false) and segments that compare equal (C22_equal_false). C22_interSymm gives the symmetries used by the polygon theorems."
  },
  {
   "property": "C23",
   "status": "proved",
   "theorems": [
    "H2d.Props.C23_side",
    "H2d.Props.C23_reversal",
    "H2d.Props.C23_translation"
   ],
   "note": ""
  },
  {
   "property": "C24",
   "status": "partial",
   "theorems": [
    "H2d.Props.C24_value_partial",
    "H2d.Props.C24_false"
   ],
   "note": "The returned value is right; the operand is modified (C24_false)."
  },
  {
   "property": "C25",
   "status": "proved",
   "theorems": [
    "H2d.Props.C25_ctor",
    "H2d.Props.C25_canonical",
    "H2d.Props.C25_positive",
    "H2d.Props.C25_center",
    "H2d.Props.C25_equal"
   ],
   "note": "Both constructors orders; threshold is a parameter."
  },
  {
   "property": "C26",
   "status": "proved",
   "theorems": [
    "H2d.Props.C26_sizes",
    "H2d.Props.C26_invariant",
    "H2d.Props.C26_translate",
    "H2d.Props.C26_extend",
    "H2d.Props.C26_rotate",
    "H2d.Props.C26_rotate_throws",
    "H2d.Props.C26_rotateRef",
    "H2d.Props.C26_rotateRef_false"
   ],
   "note": "Any history of set/translate/rotate/extend, including calls that throw. C26_rotateRef_false: a rotation about a point that throws leaves the rectangle translated."
  },
  {
   "property": "C27",
   "status": "proved",
   "theorems": [
    "H2d.Props.C27_circle_strict_order",
    "H2d.Props.C27_circle_spec",
    "H2d.Props.C27_circle_points",
    "H2d.Props.C27_circle_in_rect",
    "H2d.Props.C27_rect_in_circle",
    "H2d.Props.C27_rect_points",
    "H2d.Props.C27_rect_spec",
    "H2d.Props.C27_rect_strict_order"
   ],
   "note": "Rectangles, circles, and each in the other."
  },
  {
   "property": "C28",
   "status": "partial",
   "theorems": [
    "H2d.Props.C28_inter_partial",
    "H2d.Props.C28_false"
   ],
   "note": "Coordinates equal or at least nullDistance apart (for any thresholds); below it is false (C28_false). Also: the inside of the result is what is inside both, symmetry."
  },
  {
   "property": "C29",
   "status": "partial",
   "theorems": [
    "H2d.Props.C29_union_partial",
    "H2d.Props.C29_false",
    "H2d.Props.C29_corner_false"
   ],
   "note": "Overlapping or disjoint rectangles with coordinates equal or at least nullDistance apart. Touching rectangles: false, out of range access (C29_false) or null area (C29_corner_false)."
  },
  {
   "property": "C30",
   "status": "partial",
   "theorems": [
    "H2d.Props.C30_iou_partial",
    "H2d.Props.C30_false"
   ],
   "note": "Coordinates equal or at least nullDistance apart; 0 exactly when there is no overlap, 1 exactly for the same rectangle. Below this size it may throw (C30_false)."
  },
  {
   "property": "C31",
   "status": "proved",
   "theorems": [
    "H2d.Props.C31_bb_points",
    "H2d.Props.C31_perm"
   ],
   "note": "Exact outcome, including when it throws."
  },
  {
   "property": "C32",
   "status": "partial",
   "theorems": [
    "H2d.Props.C32_symmetric_partial",
    "H2d.Props.C32_false"
   ],
   "note": "Symmetric for points, segments, rectangles and circles; false for polylines (C32_false, typo in the second argument)."
  },
  {
   "property": "C33",
   "status": "partial",
   "theorems": [
    "H2d.Props.C33_common_bb_partial",
    "H2d.Props.C33_line_false",
    "H2d.Props.C33_polyline_false"
   ],
   "note": "Proved for containers without lines and without flat polylines; false otherwise (C33_line_false, C33_polyline_false)."
  },
  {
   "property": "C34",
   "status": "proved",
   "theorems": [
    "H2d.Props.C34_extreme",
    "H2d.Props.C34_perm"
   ],
   "note": "First extreme point in each direction, any order of the points with distinct values."
  },
  {
   "property": "C35",
   "status": "partial",
   "theorems": [
    "H2d.Props.C35_check",
    "H2d.Props.C35_history_partial",
    "H2d.Props.C35_flag",
    "H2d.Props.C35_false"
   ],
   "note": "Exact state after any history (C35_flag). The rejection holds as long as the last construction from four points or more succeeded; false after a failed one (C35_false)."
  },
  {
   "property": "C36",
   "status": "partial",
   "theorems": [
    "H2d.Props.C36_circle_partial",
    "H2d.Props.C36_order_partial",
    "H2d.Props.C36_false"
   ],
   "note": "Except for slopes within nullDenom of the axes. Also refused when two sides make too small an angle (C36_false)."
  },
  {
   "property": "C37",
   "status": "partial",
   "theorems": [
    "H2d.Props.C37_two",
    "H2d.Props.C37_mec_partial",
    "H2d.Props.C37_built_partial",
    "H2d.Props.C37_random_partial",
    "H2d.Props.C37_false",
    "H2d.Props.C37_repeated_false"
   ],
   "note": "Two points, and four or more, any random choices; except for slopes within nullDenom of the axes. False for three points (C37_false) and for repeated points (C37_repeated_false)."
  },
  {
   "property": "C38",
   "status": "partial",
   "theorems": [
    "H2d.Props.C38_inter_partial",
    "H2d.Props.C38_false"
   ],
   "note": "False for different circles that compare equal (C38_false)."
  },
  {
   "property": "C39",
   "status": "partial",
   "theorems": [
    "H2d.Props.C39_attributes_partial",
    "H2d.Props.C39_centroid_partial",
    "H2d.Props.C39_centroid_nomove_partial",
    "H2d.Props.C39_centroid_false",
    "H2d.Props.C39_retained_false"
   ],
   "note": "Length, area, simplicity: any history without writing through a retained reference. Centroid: false after translate/moveTo (C39_centroid_false), proved for the other histories. Writing through a retained reference: false (C39_retained_false)."
  },
  {
   "property": "C40",
   "status": "partial",
   "theorems": [
    "H2d.Props.C40_closed_start",
    "H2d.Props.C40_closed_reverse_partial",
    "H2d.Props.C40_open",
    "H2d.Props.C40_closed_sound",
    "H2d.Props.C40_false"
   ],
   "note": "Closed: any rotation proved; reversal proved when the polyline does not turn back on itself; false otherwise (C40_false). Open: proved when both ends differ. Converse (soundness) proved."
  },
  {
   "property": "C41",
   "status": "partial",
   "theorems": [
    "H2d.Props.C41_false",
    "H2d.Props.C41_partial"
   ],
   "note": "False: reorders the points and may change isConvex() (C41_false). What is preserved is proved in C41_partial."
  },
  {
   "property": "C42",
   "status": "proved",
   "theorems": [
    "H2d.Props.C42_area_start",
    "H2d.Props.C42_area_reverse",
    "H2d.Props.C42_area_translate",
    "H2d.Props.C42_area_linear",
    "H2d.Props.C42_area_rotate",
    "H2d.Props.C42_area_cut",
    "H2d.Props.C42_area_rect"
   ],
   "note": "For any number of vertices; segment intersection is an abstract symmetric predicate. Cut: when both parts are run in the same direction."
  },
  {
   "property": "C43",
   "status": "proved",
   "theorems": [
    "H2d.Props.C43_count",
    "H2d.Props.C43_chain",
    "H2d.Props.C43_getSegment",
    "H2d.Props.C43_throws"
   ],
   "note": "Any size, any point equality."
  },
  {
   "property": "C44",
   "status": "partial",
   "theorems": [
    "H2d.Props.C44_minimize",
    "H2d.Props.C44_ends",
    "H2d.Props.C44_angle_partial",
    "H2d.Props.C44_false"
   ],
   "note": "Exact description proved for any three-vertex test; with the angle test of the code, aligned vertices are always removed but others may be too (C44_false)."
  },
  {
   "property": "C45",
   "status": "partial",
   "theorems": [
    "H2d.Props.C45_spec",
    "H2d.Props.C45_triangle",
    "H2d.Props.C45_start",
    "H2d.Props.C45_reverse_partial",
    "H2d.Props.C45_false"
   ],
   "note": "Starting vertex and triangles proved. Direction proved without flat vertices, false with (C45_false)."
  },
  {
   "property": "C46",
   "status": "proved",
   "theorems": [
    "H2d.Props.C46_group",
    "H2d.Props.C46_isometry",
    "H2d.Props.C46_fixpoint",
    "H2d.Props.C46_direction",
    "H2d.Props.C46_rect"
   ],
   "note": "Group laws hold exactly for floating point numbers; isometry over ordered fields; also for rectangles."
  },
  {
   "property": "C47",
   "status": "partial",
   "theorems": [
    "H2d.Props.C47_scan",
    "H2d.Props.C47_hull_partial",
    "H2d.Props.C47_small",
    "H2d.Props.C47_false",
    "H2d.Props.C47_repeated_false",
    "H2d.Props.C47_pivot_twice_false"
   ],
   "note": "The scan ends and never pops an empty stack for any points, any threshold, as long as the lowest point is given once (C47_scan). The result is the convex hull when the points are different, no three are on a line through the lowest point and no triangle is below the threshold (C47_hull_partial); false otherwise (C47_false, C47_repeated_false, C47_pivot_twice_false)."
  },
  {
   "property": "C48",
   "status": "partial",
   "theorems": [
    "H2d.Props.C48_nearest_partial",
    "H2d.Props.C48_nearest_false",
    "H2d.Props.C48_farthest",
    "H2d.Props.C48_throws_iff"
   ],
   "note": "Farthest and error cases proved in full. Nearest proved unless the two first elements both equal the query; false in that case (C48_nearest_false)."
  },
  {
   "property": "C49",
   "status": "proved",
   "theorems": [
    "H2d.Props.C49_nearest_farthest"
   ],
   "note": "Order level, any distance and symmetric equality."
  },
  {
   "property": "C50",
   "status": "proved",
   "theorems": [
    "H2d.Props.C50_closest"
   ],
   "note": "Order level, any distance function."
  },
  {
   "property": "C51",
   "status": "proved",
   "theorems": [
    "H2d.Props.C51_points",
    "H2d.Props.C51_roundtrip",
    "H2d.Props.C51_collapse",
    "H2d.Props.C51_empty_false"
   ],
   "note": "Any number of points, any number format that has no space or comma; exact round trip when the numbers are written exactly. C51_collapse and C51_empty_false show where the round trip fails (limited number of digits; empty attribute)."
  },
  {
   "property": "C52",
   "status": "partial",
   "theorems": [
    "H2d.Props.C52_meaning_partial",
    "H2d.Props.C52_rel_abs",
    "H2d.Props.C52_import_partial",
    "H2d.Props.C52_relative_false",
    "H2d.Props.C52_closed_false",
    "H2d.Props.C52_minus_false",
    "H2d.Props.C52_trailing_false"
   ],
   "note": "Any sub-paths, any layout (C52_meaning_partial, C52_rel_abs, C52_import_partial). False for a relative move after a close (C52_relative_false), for paths with closed and open parts (C52_closed_false), for trailing spaces (C52_trailing_false), for minus used as separator (C52_minus_false)."
  },
  {
   "property": "C53",
   "status": "partial",
   "theorems": [
    "H2d.Props.C53_noabort_partial",
    "H2d.Props.C53_abort_false"
   ],
   "note": "All strings in which a close command is the last character or is followed by a letter. Otherwise false: any closed path followed by a space, comma or number aborts (C53_abort_false)."
  },
  {
   "property": "C54",
   "status": "partial",
   "theorems": [
    "H2d.Props.C54_purge_partial",
    "H2d.Props.C54_nodup",
    "H2d.Props.C54_false"
   ],
   "note": "Proved when the equality of points is an equivalence relation (tolerance smaller than the gaps); false with the tolerance in general (C54_false)."
  },
  {
   "property": "C55",
   "status": "partial",
   "theorems": [
    "H2d.Props.C55_partial",
    "H2d.Props.C55_false",
    "H2d.Props.C55_circle",
    "H2d.Props.C55_isCircle",
    "H2d.Props.C55_isCircle_false",
    "H2d.Props.C55_angle_partial",
    "H2d.Props.C55_angle_false"
   ],
   "note": "Ellipses with 4.a^2.b^2 at least nullDenom; below, the getters throw (C55_false). The angle is right unless the major axis is vertical (C55_angle_false: 90 returned, in radians). isCircle: C55_isCircle, C55_isCircle_false."
  },
  {
   "property": "C56",
   "status": "partial",
   "theorems": [
    "H2d.Props.C56_inside_partial",
    "H2d.Props.C56_false",
    "H2d.Props.C56_bb_partial",
    "H2d.Props.C56_bb_false"
   ],
   "note": "Major axis horizontal or tilted enough, or circle. False for every vertical major axis, for containment (C56_false) and for the bounding box (C56_bb_false)."
  },
  {
   "property": "C57",
   "status": "partial",
   "theorems": [
    "H2d.Props.C57_partial",
    "H2d.Props.C57_inside_partial",
    "H2d.Props.C57_swap_false",
    "H2d.Props.C57_false",
    "H2d.Props.C57_far_false",
    "H2d.Props.C57_origin_false",
    "H2d.Props.C57_equal",
    "H2d.Props.C57_move_false"
   ],
   "note": "Origin strictly outside the ellipse. False with the origin inside: half axes swapped (C57_swap_false), containment changed (C57_false); far ellipse unreadable (C57_far_false); curve through the origin: throws (C57_origin_false); stale flag after a move (C57_move_false)."
  },
  {
   "property": "C58",
   "status": "proved",
   "theorems": [
    "H2d.Props.C58_conic",
    "H2d.Props.C58_refused",
    "H2d.Props.C58_inside",
    "H2d.Props.C58_circle",
    "H2d.Props.C58_translation",
    "H2d.Props.C58_rotation"
   ],
   "note": "Exact conic image for any invertible matrix; translations and rotations give the ellipse built from the moved parameters."
  },
  {
   "property": "C59",
   "status": "proved",
   "theorems": [
    "H2d.Props.C59_frame",
    "H2d.Props.C59_setDefault",
    "H2d.Props.C59_resetDefault",
    "H2d.Props.C59_setters",
    "H2d.Props.C59_refused",
    "H2d.Props.C59_invariant",
    "H2d.Props.C59_cycle",
    "H2d.Props.C59_size_false"
   ],
   "note": "Histories over any number of objects. C59_size_false: the initial point size is one the setter refuses."
  },
  {
   "property": "C60",
   "status": "partial",
   "theorems": [
    "H2d.Props.C60_close_partial",
    "H2d.Props.C60_same",
    "H2d.Props.C60_false"
   ],
   "note": "Closeness proved unless both lines are nearly horizontal and lean on different sides; false in that case (C60_false)."
  },
  {
   "property": "C61",
   "status": "proved",
   "theorems": [
    "H2d.Props.C61_start_direction",
    "H2d.Props.C61_triangle",
    "H2d.Props.C61_cut",
    "H2d.Props.C61_translate",
    "H2d.Props.C61_linear"
   ],
   "note": "Signed-area form; any number of vertices."
  },
  {
   "property": "C62",
   "status": "proved",
   "theorems": [
    "H2d.Props.C62_four_points"
   ],
   "note": "The linear solver is trusted."
  },
  {
   "property": "C63",
   "status": "partial",
   "theorems": [
    "H2d.Props.C63_distance_partial",
    "H2d.Props.C63_false"
   ],
   "note": "Proved for lines with the same direction. For nearly parallel lines the result may be NaN (C63_false)."
  },
  {
   "property": "C64",
   "status": "proved",
   "theorems": [
    "H2d.Props.C64_side"
   ],
   "note": ""
  },
  {
   "property": "C65",
   "status": "proved",
   "theorems": [
    "H2d.Props.C65_coord"
   ],
   "note": ""
  },
  {
   "property": "C66",
   "status": "partial",
   "theorems": [
    "H2d.Props.C66_circle_partial",
    "H2d.Props.C66_false"
   ],
   "note": "When no end is within the null distance of the circle; false otherwise (C66_false)."
  },
  {
   "property": "C67",
   "status": "partial",
   "theorems": [
    "H2d.Props.C67_extended_partial",
    "H2d.Props.C67_false"
   ],
   "note": "For ordered ends; false otherwise (C67_false)."
  },
  {
   "property": "C68",
   "status": "partial",
   "theorems": [
    "H2d.Props.C68_false",
    "H2d.Props.C68_collinear_partial"
   ],
   "note": "Except for slopes strictly between 0 and nullDenom; false in that case (C68_false)."
  },
  {
   "property": "C69",
   "status": "partial",
   "theorems": [
    "H2d.Props.C69_false",
    "H2d.Props.C69_line_partial"
   ],
   "note": "Except for slopes strictly between 0 and nullDenom; false in that case (C69_false)."
  },
  {
   "property": "C70",
   "status": "partial",
   "theorems": [
    "H2d.Props.C70_false",
    "H2d.Props.C70_bisector_partial"
   ],
   "note": "Except for slopes within nullDenom of the axes; false for these (C70_false)."
  },
  {
   "property": "C71",
   "status": "proved",
   "theorems": [
    "H2d.Props.C71_orthog"
   ],
   "note": ""
  },
  {
   "property": "C72",
   "status": "partial",
   "theorems": [
    "H2d.Props.C72_translate_partial",
    "H2d.Props.C72_moveTo_partial",
    "H2d.Props.C72_false"
   ],
   "note": "Major axis horizontal or tilted enough, or circle; false for vertical ones (C72_false)."
  },
  {
   "property": "C73",
   "status": "proved",
   "theorems": [
    "H2d.Props.C73_circle"
   ],
   "note": ""
  },
  {
   "property": "C74",
   "status": "partial",
   "theorems": [
    "H2d.Props.C74_partial",
    "H2d.Props.C74_sound_partial",
    "H2d.Props.C74_not_simple",
    "H2d.Props.C74_answers_partial",
    "H2d.Props.C74_rounds_partial",
    "H2d.Props.C74_near_line",
    "H2d.Props.C74_throw",
    "H2d.Props.C74_false",
    "H2d.Props.C74_throw_false",
    "H2d.Props.C74_shallow_false"
   ],
   "note": "Correct when the point is not near a supporting line of an edge, and references cross edges at more than the null angle. False next to a supporting line (C74_false), for shallow crossings (C74_shallow_false), and an exception is thrown for some simple polygons (C74_throw_false). C74_rounds_partial: an answer is given if one of the five reference segments is not close to a vertex."
  },
  {
   "property": "C75",
   "status": "partial",
   "theorems": [
    "H2d.Props.C75_segments",
    "H2d.Props.C75_boxes_partial",
    "H2d.Props.C75_flat_false"
   ],
   "note": "Segments: full. Rectangles, circles, polylines: an element that is flat by itself makes the call throw (C75_flat_false)."
  },
  {
   "property": "C76",
   "status": "partial",
   "theorems": [
    "H2d.Props.C76_circle",
    "H2d.Props.C76_rect",
    "H2d.Props.C76_ellipse_partial",
    "H2d.Props.C76_empty",
    "H2d.Props.C76_false"
   ],
   "note": "Circle and rectangle fully; ellipse under the conditions of C56 (its containment test is wrong for vertical axes: C76_false)."
  },
  {
   "property": "C77",
   "status": "partial",
   "theorems": [
    "H2d.Props.C77_partial",
    "H2d.Props.C77_not_simple",
    "H2d.Props.C77_center",
    "H2d.Props.C77_false",
    "H2d.Props.C77_throw_false"
   ],
   "note": "False for centers close to the supporting line of an edge (C77_false) or when the search for a reference point fails (C77_throw_false)."
  },
  {
   "property": "C78",
   "status": "partial",
   "theorems": [
    "H2d.Props.C78_segment_partial",
    "H2d.Props.C78_segment_out_partial",
    "H2d.Props.C78_segment_answers",
    "H2d.Props.C78_rect_answers",
    "H2d.Props.C78_polyline_partial",
    "H2d.Props.C78_polyline_out_partial",
    "H2d.Props.C78_empty",
    "H2d.Props.C78_rect_partial",
    "H2d.Props.C78_rect_out_partial",
    "H2d.Props.C78_false",
    "H2d.Props.C78_shallow_false"
   ],
   "note": "False for small angles (C78_shallow_false: a segment that crosses a notch is said inside) and ends close to the supporting line of an edge (C78_false)."
  },
  {
   "property": "C79",
   "status": "partial",
   "theorems": [
    "H2d.Props.C79_false",
    "H2d.Props.C79_segment_partial",
    "H2d.Props.C79_line_partial",
    "H2d.Props.C79_circle_partial",
    "H2d.Props.C79_polyline_partial",
    "H2d.Props.C79_symmetric",
    "H2d.Props.C79_short"
   ],
   "note": "Conditions of C22, C66, C69 on each edge; symmetry is unconditional. False without these conditions (C79_false)."
  },
  {
   "property": "C80",
   "status": "partial",
   "theorems": [
    "H2d.Props.C80_line",
    "H2d.Props.C80_line_partial",
    "H2d.Props.C80_line_false",
    "H2d.Props.C80_circle_partial",
    "H2d.Props.C80_circle_false",
    "H2d.Props.C80_rect_partial",
    "H2d.Props.C80_rect_far"
   ],
   "note": "Exact for lines and circles that are not near a corner, and for rectangles with equal or clearly different coordinates; for lines near a corner a far point can be missed (`C80_line_false`), for circles through a corner another point of the side is missed (`C80_circle_false`)."
  },
  {
   "property": "C81",
   "status": "partial",
   "theorems": [
    "H2d.Props.C81_bounding_partial",
    "H2d.Props.C81_inscribed_partial",
    "H2d.Props.C81_false",
    "H2d.Props.C81_diagonals"
   ],
   "note": "Rectangles with sides below the null distance are excluded: building the circles throws, or the inscribed circle has a radius that is refused elsewhere (`C81_false`)."
  },
  {
   "property": "C82",
   "status": "proved",
   "theorems": [
    "H2d.Props.C82_regular",
    "H2d.Props.C82_refused"
   ],
   "note": "Stated for sin(pi/n) not below nullDenom (less than 3e10 points with the default value)."
  },
  {
   "property": "C83",
   "status": "partial",
   "theorems": [
    "H2d.Props.C83_partial",
    "H2d.Props.C83_false"
   ],
   "note": "False for sides that are nearly horizontal without being so (`C83_false`), as a consequence of `C01_false`."
  },
  {
   "property": "C84",
   "status": "proved",
   "theorems": [
    "H2d.Props.C84_angle",
    "H2d.Props.C84_antisymmetric",
    "H2d.Props.C84_directions"
   ],
   "note": ""
  },
  {
   "property": "C85",
   "status": "partial",
   "theorems": [
    "H2d.Props.C85_partial",
    "H2d.Props.C85_false"
   ],
   "note": "False for results that are nearly horizontal without being so (`C85_false`), as a consequence of `C01_false`."
  },
  {
   "property": "C86",
   "status": "partial",
   "theorems": [
    "H2d.Props.C86_closed_partial",
    "H2d.Props.C86_open_partial",
    "H2d.Props.C86_short",
    "H2d.Props.C86_false"
   ],
   "note": "False when edges or bisectors are nearly horizontal without being so: the call throws (`C86_false`), as a consequence of `C01_false`."
  },
  {
   "property": "C87",
   "status": "partial",
   "theorems": [
    "H2d.Props.C87_partial",
    "H2d.Props.C87_false",
    "H2d.Props.C87_concentric",
    "H2d.Props.C87_same_partial"
   ],
   "note": "Inside circles give NaN coordinates and no throw (`C87_false`). Nearly horizontal and nearly vertical tangents are excluded as in C01, C06 and C21. For radii the same up to the null distance, the first radius is used for both (`C87_same_partial`)."
  },
  {
   "property": "C88",
   "status": "partial",
   "theorems": [
    "H2d.Props.C88_partial",
    "H2d.Props.C88_convex_partial",
    "H2d.Props.C88_split_partial",
    "H2d.Props.C88_start",
    "H2d.Props.C88_throw_false",
    "H2d.Props.C88_inside_false",
    "H2d.Props.C88_sharp_false",
    "H2d.Props.C88_split_false",
    "H2d.Props.C88_const_false"
   ],
   "note": "Proved: one point per vertex at the signed distance (all polygons), outside/inside and accepted for convex polygons, cut corners, independence of first vertex and direction. False: throws instead of returning an empty polyline, large negative distances give points outside, sharp vertices are dropped, nearly flat corners throw with the option, the points of the object are reordered."
  },
  {
   "property": "C89",
   "status": "partial",
   "theorems": [
    "H2d.Props.C89_axes_partial",
    "H2d.Props.C89_obb_partial",
    "H2d.Props.C89_axes_false",
    "H2d.Props.C89_false"
   ],
   "note": "Proved for ellipses whose angle is found and whose axes are not nearly (but not exactly) along the coordinate axes. False for a vertical major axis: the angle found is 90 radians, the box does not hold the ellipse."
  },
  {
   "property": "C90",
   "status": "proved",
   "theorems": [
    "H2d.Props.C90_orthog"
   ],
   "note": "Full statement, with the order of the four segments."
  },
  {
   "property": "C91",
   "status": "partial",
   "theorems": [
    "H2d.Props.C91_circle_rect",
    "H2d.Props.C91_partial",
    "H2d.Props.C91_false"
   ],
   "note": "Proved without condition for circles and rectangles. For ellipses: the ones whose angle is found. For polygons: simple ones, points far from the lines of the edges, when the test answers. False otherwise (C91_false)."
  },
  {
   "property": "C92",
   "status": "partial",
   "theorems": [
    "H2d.Props.C92_partial",
    "H2d.Props.C92_false"
   ],
   "note": "Proved for segments that are along an axis or not nearly so. False for nearly horizontal ones: the function throws."
  },
  {
   "property": "C93",
   "status": "partial",
   "theorems": [
    "H2d.Props.C93_partial",
    "H2d.Props.C93_small",
    "H2d.Props.C93_false"
   ],
   "note": "Proved when no corner is near the line and no side met is nearly parallel to it. False for lines nearly parallel to a side: nothing is drawn though 1000 pixels are in the image."
  },
  {
   "property": "C94",
   "status": "partial",
   "theorems": [
    "H2d.Props.C94_partial",
    "H2d.Props.C94_rounded_partial",
    "H2d.Props.C94_ignored",
    "H2d.Props.C94_each",
    "H2d.Props.C94_size",
    "H2d.Props.C94_no_size",
    "H2d.Props.C94_vertical_false",
    "H2d.Props.C94_center_false",
    "H2d.Props.C94_axes_false",
    "H2d.Props.C94_transform_false",
    "H2d.Props.C94_points_false"
   ],
   "note": "Proved for shapes drawn without their points and ellipses whose angle is found; with exact numbers, and with an error bound for rounded ones (circles, rectangles, segments, polylines). False for vertical ellipses (turned by 90 radians), for rotations around another point, for ellipses higher than wide (axes exchanged), for ellipses without transform attribute (nothing is imported), for shapes drawn with their points."
  },
  {
   "property": "C95",
   "status": "proved",
   "theorems": [
    "H2d.Props.C95_symbol"
   ],
   "note": "Full statement, over all histories of the parameters, for thresholds of at most one pixel. Conversion of the coordinates to float is not modelled."
  },
  {
   "property": "C96",
   "status": "partial",
   "theorems": [
    "H2d.Props.C96_partial",
    "H2d.Props.C96_false",
    "H2d.Props.C96_arrow_false"
   ],
   "note": "Proved for all sequences that end without an exception. False otherwise: the exception of an ellipse leaves the beginning of a tag, the one of an oriented segment an open group; no later drawing repairs the file."
  },
  {
   "property": "C97",
   "status": "partial",
   "theorems": [
    "H2d.Props.C97_partial",
    "H2d.Props.C97_false",
    "H2d.Props.C97_stroke_false",
    "H2d.Props.C97_space_false"
   ],
   "note": "Proved for attributes that are not the ones of the shapes, when fill= is only found as the attribute fill. False for names that end with fill, for fill followed by a space, for stroke (written twice)."
  },
  {
   "property": "C98",
   "status": "partial",
   "theorems": [
    "H2d.Props.C98_axis",
    "H2d.Props.C98_point",
    "H2d.Props.C98_points",
    "H2d.Props.C98_orthog_partial",
    "H2d.Props.C98_origin",
    "H2d.Props.C98_origin_partial",
    "H2d.Props.C98_false",
    "H2d.Props.C98_dir",
    "H2d.Props.C98_four_partial",
    "H2d.Props.C98_segments_partial"
   ],
   "note": "Points with a given coordinate, points at a distance, vertical and horizontal lines: full statement. Lines through points: for slopes that are null or above the threshold; false otherwise (C98_false)."
  },
  {
   "property": "C99",
   "status": "partial",
   "theorems": [
    "H2d.Props.C99_two_partial",
    "H2d.Props.C99_false",
    "H2d.Props.C99_many",
    "H2d.Props.C99_order"
   ],
   "note": "Full statement except conversions: the conversion of an empty result throws, so that a circle and a line with different types of numbers throw whenever they do not meet (C99_false)."
  },
  {
   "property": "C100",
   "status": "partial",
   "theorems": [
    "H2d.Props.C100_keep",
    "H2d.Props.C100_radius_partial",
    "H2d.Props.C100_false",
    "H2d.Props.C100_two_false",
    "H2d.Props.C100_moves",
    "H2d.Props.C100_smallest_partial",
    "H2d.Props.C100_reset"
   ],
   "note": "Full for failures, moves, resets. The radius stays valid for histories that do not write the radius alone; false for set(rad), which accepts a negative value, and for two close points, which give a radius refused by the other functions."
  },
  {
   "property": "C101",
   "status": "proved",
   "theorems": [
    "H2d.Props.C101_symmetric",
    "H2d.Props.C101_zero",
    "H2d.Props.C101_error",
    "H2d.Props.C101_triangle",
    "H2d.Props.C101_compare",
    "H2d.Props.C101_nearest"
   ],
   "note": "Overflow and underflow are not modelled."
  },
  {
   "property": "C102",
   "status": "proved",
   "theorems": [
    "H2d.Props.C102_length",
    "H2d.Props.C102_zero"
   ],
   "note": "Overflow and underflow are not modelled."
  },
  {
   "property": "C103",
   "status": "proved",
   "theorems": [
    "H2d.Props.C103_area",
    "H2d.Props.C103_sign",
    "H2d.Props.C103_integers",
    "H2d.Props.C103_sharp"
   ],
   "note": "Error bound, sign and exactness on integers. Without the bound the area is not right: a unit square far away has computed area 0 (C103_sharp). Overflow and underflow are not modelled."
  },
  {
   "property": "C104",
   "status": "proved",
   "theorems": [
    "H2d.Props.C104_turn",
    "H2d.Props.C104_convex",
    "H2d.Props.C104_integers",
    "H2d.Props.C104_orientation",
    "H2d.Props.C104_side",
    "H2d.Props.C104_sharp"
   ],
   "note": "With the bounds of the statement. Without them the result is wrong: a strictly convex quadrilateral is declared not convex (C104_sharp). Overflow and underflow are not modelled."
  },
  {
   "property": "C105",
   "status": "proved",
   "theorems": [
    "H2d.Props.C105_center",
    "H2d.Props.C105_sizes",
    "H2d.Props.C105_translate",
    "H2d.Props.C105_circle_box",
    "H2d.Props.C105_sharp"
   ],
   "note": "Far away, a translated rectangle can collapse and the box of a circle throws (C105_sharp). Overflow and underflow are not modelled."
  },
  {
   "property": "C106",
   "status": "partial",
   "theorems": [
    "H2d.Props.C106_symmetric",
    "H2d.Props.C106_defined",
    "H2d.Props.C106_normalised",
    "H2d.Props.C106_points_partial",
    "H2d.Props.C106_false"
   ],
   "note": "Incidence for lines that are exactly horizontal or whose slope exceeds the threshold; the other slopes have the sign defect of C06, also without rounding."
  },
  {
   "property": "C107",
   "status": "proved",
   "theorems": [
    "H2d.Props.C107_error",
    "H2d.Props.C107_product",
    "H2d.Props.C107_affine",
    "H2d.Props.C107_translation"
   ],
   "note": "Overflow and underflow are not modelled; the error after the division by a third value other than 1 is not bounded."
  },
  {
   "property": "C108",
   "status": "proved",
   "theorems": [
    "H2d.Props.C108_line",
    "H2d.Props.C108_positive"
   ],
   "note": "Overflow and underflow are not modelled."
  },
  {
   "property": "C109",
   "status": "proved",
   "theorems": [
    "H2d.Props.C109_defined",
    "H2d.Props.C109_decision",
    "H2d.Props.C109_points",
    "H2d.Props.C109_sharp"
   ],
   "note": "Overflow and underflow are not modelled. The margin of the decision is needed: C109_sharp."
  },
  {
   "property": "C110",
   "status": "proved",
   "theorems": [
    "H2d.Props.C110_dist",
    "H2d.Props.C110_region",
    "H2d.Props.C110_sharp"
   ],
   "note": "Overflow and underflow are not modelled. The margin for the region is needed: C110_sharp."
  },
  {
   "property": "C111",
   "status": "proved",
   "theorems": [
    "H2d.Props.C111_hull",
    "H2d.Props.C111_exact",
    "H2d.Props.C111_sharp"
   ],
   "note": "Overflow and underflow are not modelled. The bound is needed: C111_sharp."
  },
  {
   "property": "C112",
   "status": "proved",
   "theorems": [
    "H2d.Props.C112_angle",
    "H2d.Props.C112_sym",
    "H2d.Props.C112_parallel",
    "H2d.Props.C112_sharp"
   ],
   "note": "Overflow and underflow are not modelled. The square root in the error is needed: C112_sharp."
  },
  {
   "property": "C113",
   "status": "partial",
   "theorems": [
    "H2d.Props.C113_false",
    "H2d.Props.C113_points_partial",
    "H2d.Props.C113_decision_partial",
    "H2d.Props.C113_two_partial"
   ],
   "note": "Overflow and underflow are not modelled. Decision with a margin, accuracy of the points and their sides proved. The last part is false: touching circles give NaN coordinates for any number of bits (C113_false)."
  },
  {
   "property": "C114",
   "status": "proved",
   "theorems": [
    "H2d.Props.C114_curve",
    "H2d.Props.C114_length"
   ],
   "note": "Exact reals. Ellipses with 4 a^2 b^2 below the threshold throw, see C55."
  },
  {
   "property": "C115",
   "status": "proved",
   "theorems": [
    "H2d.Props.C115_throws",
    "H2d.Props.C115_point",
    "H2d.Props.C115_symmetric"
   ],
   "note": "Rounded operations with unbounded exponents (no overflow, no subnormal numbers). The sine must be at least 8 u."
  },
  {
   "property": "C116",
   "status": "proved",
   "theorems": [
    "H2d.Props.C116_defined",
    "H2d.Props.C116_found",
    "H2d.Props.C116_crossing",
    "H2d.Props.C116_sound",
    "H2d.Props.C116_symmetric",
    "H2d.Props.C116_sharp"
   ],
   "note": "The bound 512 u M^2 <= S L^2 is a condition; without such a condition the claim is false: C116_sharp gives two crossing segments of length 3 with integer coordinates, far from the origin, for which nothing is found, for any precision."
  },
  {
   "property": "C117",
   "status": "proved",
   "theorems": [
    "H2d.Props.C117_nearest",
    "H2d.Props.C117_farthest",
    "H2d.Props.C117_both",
    "H2d.Props.C117_closest",
    "H2d.Props.C117_sharp"
   ],
   "note": "Nearest: one of the two first points must differ from the query (C48_nearest_false otherwise). C117_sharp: for any precision, two points with exact coordinates for which the exact nearest point is not the one found."
  },
  {
   "property": "C118",
   "status": "partial",
   "theorems": [
    "H2d.Props.C118_small",
    "H2d.Props.C118_defined",
    "H2d.Props.C118_agrees",
    "H2d.Props.C118_centroid",
    "H2d.Props.C118_crossing_partial",
    "H2d.Props.C118_apart_partial",
    "H2d.Props.C118_triangle",
    "H2d.Props.C118_overlap_false",
    "H2d.Props.C118_shallow_false"
   ],
   "note": "Right for edges that cross at an angle above the null angle and for edges apart by the null distance. False in general: C118_overlap_false (edges that overlap), C118_shallow_false (edges that cross at a small angle) are said not to meet."
  },
  {
   "property": "C119",
   "status": "partial",
   "theorems": [
    "H2d.Props.C119_area_apart_partial",
    "H2d.Props.C119_area_touching_partial",
    "H2d.Props.C119_area_open",
    "H2d.Props.C119_defined",
    "H2d.Props.C119_apart_partial",
    "H2d.Props.C119_touching_partial",
    "H2d.Props.C119_crossing_partial",
    "H2d.Props.C119_far_false"
   ],
   "note": "C119_area_*: consequences for area(). The distances needed are explicit. C119_far_false: for any precision of at least 10 bits, short edges far from the origin that cross at a right angle are not seen, the polygon is said to be simple."
  },
  {
   "property": "C120",
   "status": "partial",
   "theorems": [
    "H2d.Props.C120_stroke",
    "H2d.Props.C120_colors",
    "H2d.Props.C120_text",
    "H2d.Props.C120_bytes",
    "H2d.Props.C120_labels_partial",
    "H2d.Props.C120_angles_false"
   ],
   "note": "C120_angles_false: the angle at the first point of a closed polyline is not written. The content of the texts is not modelled."
  },
  {
   "property": "C121",
   "status": "partial",
   "theorems": [
    "H2d.Props.C121_error_partial",
    "H2d.Props.C121_throws",
    "H2d.Props.C121_far_false"
   ],
   "note": "The area must be at least 7 n\u00b2 u M\u00b2. C121_far_false: for any precision of at least 10 bits, a square of side 1 far from the origin, taken as simple, has a centroid that is not a number."
  },
  {
   "property": "C122",
   "status": "partial",
   "theorems": [
    "H2d.Props.C122_required",
    "H2d.Props.C122_noabort_partial",
    "H2d.Props.C122_empty_false",
    "H2d.Props.C122_rotate",
    "H2d.Props.C122_transform",
    "H2d.Props.C122_size"
   ],
   "note": "The lists of points must not be empty (C122_empty_false: undefined behaviour), and paths must be as in C53 (C53_abort_false). The value -1 for a size counts as missing."
  },
  {
   "property": "C123",
   "status": "proved",
   "theorems": [
    "H2d.Props.C123_numbers",
    "H2d.Props.C123_points",
    "H2d.Props.C123_polygons",
    "H2d.Props.C123_turns",
    "H2d.Props.C123_boxes",
    "H2d.Props.C123_lines",
    "H2d.Props.C123_homographies",
    "H2d.Props.C123_hull",
    "H2d.Props.C123_double_area",
    "H2d.Props.C123_overflow_sharp",
    "H2d.Props.C123_underflow_sharp"
   ],
   "note": "C123_overflow_sharp and C123_underflow_sharp show with double what happens beyond. NaN and infinite values are not modelled: an overflow gives any number. Searches, intersections and centroid: C135."
  },
  {
   "property": "C124",
   "status": "partial",
   "theorems": [
    "H2d.Props.C124_decision_partial",
    "H2d.Props.C124_error",
    "H2d.Props.C124_back",
    "H2d.Props.C124_translation",
    "H2d.Props.C124_singular_false"
   ],
   "note": "The last part is false without a condition on the size of the values: for any precision, a matrix without inverse whose computed determinant is -2 (C124_singular_false)."
  },
  {
   "property": "C125",
   "status": "partial",
   "theorems": [
    "H2d.Props.C125_inside_partial",
    "H2d.Props.C125_partial",
    "H2d.Props.C125_answers_partial",
    "H2d.Props.C125_near_line",
    "H2d.Props.C125_false",
    "H2d.Props.C125_rounds_partial",
    "H2d.Props.C125_throw",
    "H2d.Props.C125_throw_false"
   ],
   "note": "Proved for the points not closer than 11/10 of the null distance to the lines that support the edges. False for the others: with double and the default thresholds, a point at 1/2 of the contour, inside, is answered false (C125_false). An answer is given if one of the five reference segments is not near a vertex (C125_rounds_partial), an exception is thrown if each is near a vertex (C125_throw; C125_throw_false with long double and the default thresholds)."
  },
  {
   "property": "C126",
   "status": "partial",
   "theorems": [
    "H2d.Props.C126_widen",
    "H2d.Props.C126_distances",
    "H2d.Props.C126_order",
    "H2d.Props.C126_segment_points",
    "H2d.Props.C126_box",
    "H2d.Props.C126_measures",
    "H2d.Props.C126_line",
    "H2d.Props.C126_valid_partial",
    "H2d.Props.C126_false",
    "H2d.Props.C126_order_sharp"
   ],
   "note": "Validity of the result is proved for objects that are large compared to the null distances and to the errors of conversion. It is false in general (C126_false): the converting constructors do not check again, so that double to float may give a rectangle of null width, a segment with two equal ends or a polyline with equal consecutive vertices, which the constructors of the target type refuse. The two ends of a segment may also be exchanged (C126_order_sharp)."
  },
  {
   "property": "C127",
   "status": "partial",
   "theorems": [
    "H2d.Props.C127_inter_partial",
    "H2d.Props.C127_points_partial",
    "H2d.Props.C127_double_partial",
    "H2d.Props.C127_false"
   ],
   "note": "Proved when no coordinate of one rectangle is closer than three null distances to one of the other. It is false when the rectangles share a coordinate (C127_false): with double values intersectArea() throws for a rectangle inside another one with two common sides, because the common side is found at two different places."
  },
  {
   "property": "C128",
   "status": "partial",
   "theorems": [
    "H2d.Props.C128_union_partial",
    "H2d.Props.C128_area_partial",
    "H2d.Props.C128_false"
   ],
   "note": "Proved for rectangles whose coordinates are equal or three null distances apart and that overlap or have no common point. For rectangles that only touch it is false (C128_false): unionArea() reads outside of its table."
  },
  {
   "property": "C129",
   "status": "partial",
   "theorems": [
    "H2d.Props.C129_iou_partial",
    "H2d.Props.C129_self_partial",
    "H2d.Props.C129_double_partial",
    "H2d.Props.C129_false"
   ],
   "note": "Proved when no coordinate of one rectangle is closer than L to one of the other, and for two equal rectangles. It is false for rectangles that share some coordinates (C129_false): IoU() throws for double values when a rectangle is inside another one with two common sides."
  },
  {
   "property": "C130",
   "status": "partial",
   "theorems": [
    "H2d.Props.C130_matrix",
    "H2d.Props.C130_errors",
    "H2d.Props.C130_lines_partial",
    "H2d.Props.C130_false",
    "H2d.Props.C130_points",
    "H2d.Props.C130_roundtrip",
    "H2d.Props.C130_ptd_false"
   ],
   "note": "False for the assignment of a matrix after a product with a line (C130_false: the cached matrix for lines is not updated) and for getCvPtd() and getCvPtf(), whose returned type has integer coordinates (C130_ptd_false). Everything else is proved."
  },
  {
   "property": "C131",
   "status": "partial",
   "theorems": [
    "H2d.Props.C131_ring_partial",
    "H2d.Props.C131_false"
   ],
   "note": "Proved for rings whose vertices make a valid polyline. False for others (C131_false): repeated points are imported without the check done by the other constructors, a ring with one point gives an empty polyline, an empty ring is undefined behaviour."
  },
  {
   "property": "C132",
   "status": "partial",
   "theorems": [
    "H2d.Props.C132_incidence_partial",
    "H2d.Props.C132_translation",
    "H2d.Props.C132_false"
   ],
   "note": "Proved with a bound proportional to M^3/|det|, when determinant, third value of the transformed point and direction of the transformed line are above the rounding errors, and the line is horizontal or not nearly so. C132_false: a matrix without inverse for which the product with a line gives a line."
  },
  {
   "property": "C133",
   "status": "partial",
   "theorems": [
    "H2d.Props.C133_margin_partial",
    "H2d.Props.C133_false"
   ],
   "note": "Proved for points in general position: twice the area of each triangle is above the threshold by 40 u M^2. Without this it is false (C133_false): four different points with integer coordinates, for which the angles are tied in the sort and the scan takes the top of an empty stack (undefined behaviour), in all precisions."
  },
  {
   "property": "C134",
   "status": "proved",
   "theorems": [
    "H2d.Props.C134_polyline",
    "H2d.Props.C134_rectangle",
    "H2d.Props.C134_homography"
   ],
   "note": "No hypothesis on the rounding. Not for convexHull (C133_false), intersectArea and IoU, which contain assertions (C127, C129)."
  },
  {
   "property": "C135",
   "status": "proved",
   "theorems": [
    "H2d.Props.C135_intersections",
    "H2d.Props.C135_distances",
    "H2d.Props.C135_searches",
    "H2d.Props.C135_polygons",
    "H2d.Props.C135_inside",
    "H2d.Props.C135_rectangles",
    "H2d.Props.C135_homographies",
    "H2d.Props.C135_double_inside",
    "H2d.Props.C135_double_rectangles"
   ],
   "note": "Union and IoU are not covered. C135_double_inside and C135_double_rectangles give C125 and C127 for double with its exponent limits. NaN and infinite values are not modelled: an overflow gives any number. What happens near the limits: C123_overflow_sharp, C123_underflow_sharp."
  },
  {
   "property": "C136",
   "status": "proved",
   "theorems": [
    "H2d.Props.C136_text",
    "H2d.Props.C136_container",
    "H2d.Props.C136_root",
    "H2d.Props.C136_matrix",
    "H2d.Props.C136_columns",
    "H2d.Props.C136_intersection",
    "H2d.Props.C136_line_false",
    "H2d.Props.C136_digits_false",
    "H2d.Props.C136_polyline_false"
   ],
   "note": "Exceptions: a point at infinity and a line with the same three values (C136_line_false); with the default precision of a stream different points can have the same text (C136_digits_false); the text of IntersectM does not hold its points, written on std::cout instead (C136_polyline_false). The text of drawing parameters is not modelled."
  },
  {
   "property": "C137",
   "status": "proved",
   "theorems": [
    "H2d.Props.C137_range",
    "H2d.Props.C137_throw",
    "H2d.Props.C137_same_second",
    "H2d.Props.C137_sharp"
   ],
   "note": "C137_sharp: without the condition on minval and maxval the conversion to uint8_t is undefined for some results of std::rand(), it is not checked."
  },
  {
   "property": "C138",
   "status": "proved",
   "theorems": [
    "H2d.Props.C138_segment",
    "H2d.Props.C138_polylines",
    "H2d.Props.C138_sharp"
   ],
   "note": "The bound on the distance is 150 u M^2 / (L S): coordinates up to M, lengths at least L, sine of the angles at least S. C138_sharp: without the condition on the precision, a crossing is not found."
  },
  {
   "property": "C139",
   "status": "partial",
   "theorems": [
    "H2d.Props.C139_segment_partial",
    "H2d.Props.C139_false",
    "H2d.Props.C139_polyline_partial",
    "H2d.Props.C139_empty",
    "H2d.Props.C139_rectangle_partial"
   ],
   "note": "Proved when each vertex meets the conditions of C125 (not close to the lines of the edges of the polygon, not too close to all the reference segments) and each edge is either far from each edge of the polygon or has a common point with it at an angle that is not too small. False in general: an inside segment far from the contour with an end on the line of an edge is answered false (C139_false)."
  },
  {
   "property": "C140",
   "status": "partial",
   "theorems": [
    "H2d.Props.C140_schedules_partial",
    "H2d.Props.C140_after_partial",
    "H2d.Props.C140_ready_partial",
    "H2d.Props.C140_readonly",
    "H2d.Props.C140_again_partial",
    "H2d.Props.C140_return",
    "H2d.Props.C140_false"
   ],
   "note": "Proved if the polyline has been compared before, or if no thread compares it; every call returns, whatever the others do. False otherwise: a comparison rotates the vertices in place, an area computed meanwhile is wrong, and stays wrong for later calls (C140_false). Once a call has returned a value, calls of the same kind only read: no race at all (C140_readonly, C140_again_partial). Memory is taken as sequentially consistent; for the C++ standard two first calls are a data race, hence undefined behaviour."
  },
  {
   "property": "C141",
   "status": "partial",
   "theorems": [
    "H2d.Props.C141_schedules_partial",
    "H2d.Props.C141_warm",
    "H2d.Props.C141_readonly",
    "H2d.Props.C141_return",
    "H2d.Props.C141_false"
   ],
   "note": "Proved if the homography has transformed a line before, even if it has been modified since then. False otherwise, for every homography: both threads allocate the cached matrix, one of them reads a deleted matrix, or a null one (C141_false). After a first line by a single thread, all other products only read: no race at all (C141_warm, C141_readonly). Memory is taken as sequentially consistent."
  },
  {
   "property": "C142",
   "status": "proved",
   "theorems": [
    "H2d.Props.C142_safe",
    "H2d.Props.C142_points",
    "H2d.Props.C142_draws",
    "H2d.Props.C142_draws_sharp",
    "H2d.Props.C142_real"
   ],
   "note": "The bound on the number of draws is reached if the test never answers true (C142_draws_sharp). That the circle encloses the points is claim C37, for real numbers; with rounding nothing is claimed about it here."
  },
  {
   "property": "C143",
   "status": "partial",
   "theorems": [
    "H2d.Props.C143_two",
    "H2d.Props.C143_bisector_partial",
    "H2d.Props.C143_three_partial",
    "H2d.Props.C143_defined",
    "H2d.Props.C143_collinear_partial",
    "H2d.Props.C143_false"
   ],
   "note": "Proved for pairs of points that are horizontal, vertical or whose direction cosines are at least twice the null denominator. Missing: nearly horizontal or vertical pairs, where the claim is false even without rounding (C143_false): the normalization changes a sign of the line of two points and the bisector is then wrong."
  },
  {
   "property": "C144",
   "status": "partial",
   "theorems": [
    "H2d.Props.C144_readers",
    "H2d.Props.C144_one_partial",
    "H2d.Props.C144_return",
    "H2d.Props.C144_false",
    "H2d.Props.C144_radius_false"
   ],
   "note": "Proved if no thread builds a circle from a container of four points or more (C144_readers), or if only one does and the others do not ask for a null radius (C144_one_partial). Otherwise it is false: the search of the minimum enclosing circle disables the check of radii by a global flag. Of two threads that search, the first to end makes the other one throw (C144_false), and a circle of null radius may be accepted (C144_radius_false)."
  },
  {
   "property": "C145",
   "status": "partial",
   "theorems": [
    "H2d.Props.C145_defined",
    "H2d.Props.C145_circle",
    "H2d.Props.C145_inside_partial",
    "H2d.Props.C145_outside_partial",
    "H2d.Props.C145_crossing_partial",
    "H2d.Props.C145_through_partial",
    "H2d.Props.C145_sharp",
    "H2d.Props.C145_false"
   ],
   "note": "Partial: the margins are needed. An end inside the circle by 2^-40 in double: the point reported is at distance 2 of the exact one and not on the segment (C145_sharp). Far from the origin a segment with an end inside and the other outside, by 1/5, has no intersection point (C145_false). Nearly horizontal segments are excluded (C106_false)."
  },
  {
   "property": "C146",
   "status": "proved",
   "theorems": [
    "H2d.Props.C146_found",
    "H2d.Props.C146_sound",
    "H2d.Props.C146_aside",
    "H2d.Props.C146_polyline",
    "H2d.Props.C146_even",
    "H2d.Props.C146_sharp"
   ],
   "note": "The conditions on the precision are needed: far from the origin, a segment and a perpendicular line that cross in the middle of the segment have no intersection point (C146_sharp). Nearly horizontal segments are excluded (C106_false)."
  },
  {
   "property": "C147",
   "status": "proved",
   "theorems": [
    "H2d.Props.C147_points",
    "H2d.Props.C147_lines",
    "H2d.Props.C147_parallels",
    "H2d.Props.C147_segments",
    "H2d.Props.C147_circles",
    "H2d.Props.C147_moves",
    "H2d.Props.C147_rectRuns",
    "H2d.Props.C147_orthogonal",
    "H2d.Props.C147_polylines",
    "H2d.Props.C147_inside",
    "H2d.Props.C147_hull",
    "H2d.Props.C147_homography",
    "H2d.Props.C147_transformations",
    "H2d.Props.C147_rectangles",
    "H2d.Props.C147_rectLine",
    "H2d.Props.C147_circleCuts",
    "H2d.Props.C147_searches",
    "H2d.Props.C147_sharp"
   ],
   "note": "This ties the rounded model to the real one: all theorems of the real model hold for the rounded one without rounding. The centroid of a polygon of area zero is not a number in the first one, and has no meaning in the second. IoU is not compared: the model over the reals does not have the exception of its area."
  },
  {
   "property": "C148",
   "status": "proved",
   "theorems": [
    "H2d.Props.C148_coord",
    "H2d.Props.C148_side",
    "H2d.Props.C148_points",
    "H2d.Props.C148_parallel",
    "H2d.Props.C148_parallels",
    "H2d.Props.C148_distance",
    "H2d.Props.C148_roundtrip",
    "H2d.Props.C148_sharp",
    "H2d.Props.C148_side_sharp"
   ],
   "note": "The parallel through a point is for lines that are horizontal or not nearly so: for the others the sign correction of the normalisation is wrong (C106_false). C148_sharp: for two nearly parallel lines leaning on different sides of the vertical the distance is not a number, whatever the thresholds. C148_side_sharp: the error of side() depends on the sizes of the values, a point may be said to be on the line while the expression is any power of 2."
  },
  {
   "property": "C149",
   "status": "proved",
   "theorems": [
    "H2d.Props.C149_turns",
    "H2d.Props.C149_history",
    "H2d.Props.C149_moveTo",
    "H2d.Props.C149_exact",
    "H2d.Props.C149_integers",
    "H2d.Props.C149_rect",
    "H2d.Props.C149_center",
    "H2d.Props.C149_sharp"
   ],
   "note": "C149_sharp: two half turns about (1,0) do not give back the same point in general. A translation may give a rectangle of width 0 (C105_sharp)."
  },
  {
   "property": "C150",
   "status": "proved",
   "theorems": [
    "H2d.Props.C150_line",
    "H2d.Props.C150_at",
    "H2d.Props.C150_segment",
    "H2d.Props.C150_decision",
    "H2d.Props.C150_sharp"
   ],
   "note": "C150_sharp: without the hypothesis on the slope (lines within the null angle of vertical) the computation fails even without rounding. The variant giving the line at a coordinate uses the bound on the computed point (C148_coord)."
  },
  {
   "property": "C151",
   "status": "proved",
   "theorems": [
    "H2d.Props.C151_points",
    "H2d.Props.C151_count",
    "H2d.Props.C151_any",
    "H2d.Props.C151_sharp"
   ],
   "note": "C151_sharp: for a line that passes by a corner, both points can be near that corner and the other common point is missed, even without rounding."
  },
  {
   "property": "C152",
   "status": "partial",
   "theorems": [
    "H2d.Props.C152_polyline_partial",
    "H2d.Props.C152_even_partial",
    "H2d.Props.C152_rectangle_partial",
    "H2d.Props.C152_false"
   ],
   "note": "Proved when each edge is inside the disc, outside, or cuts the circle, by a margin. Missing: edges that touch the circle or have an end near it. C152_false: a circle through a corner of a rectangle, another intersection on the same side is missed, even without rounding."
  },
  {
   "property": "C153",
   "status": "proved",
   "theorems": [
    "H2d.Props.C153_points",
    "H2d.Props.C153_rigid",
    "H2d.Props.C153_translations",
    "H2d.Props.C153_sharp"
   ],
   "note": "C153_sharp: the error depends on the lengths of the translations, not only on the result: three translations of sum (1,0) for which the origin does not move, at any precision. The argument of cosine and sine is exact."
  },
  {
   "property": "C154",
   "status": "partial",
   "theorems": [
    "H2d.Props.C154_line_partial",
    "H2d.Props.C154_decision",
    "H2d.Props.C154_false"
   ],
   "note": "Missing: results that are nearly horizontal without being so. C154_false: for those the line returned does not pass by the point, even without rounding."
  },
  {
   "property": "C155",
   "status": "proved",
   "theorems": [
    "H2d.Props.C155_points",
    "H2d.Props.C155_congruent",
    "H2d.Props.C155_moveTo",
    "H2d.Props.C155_sharp"
   ],
   "note": "C155_sharp: `==` is a const operator but can change the order of the points."
  },
  {
   "property": "C156",
   "status": "proved",
   "theorems": [
    "H2d.Props.C156_ends",
    "H2d.Props.C156_segment",
    "H2d.Props.C156_polyline",
    "H2d.Props.C156_polyline_ok",
    "H2d.Props.C156_circle_rect",
    "H2d.Props.C156_point",
    "H2d.Props.C156_line",
    "H2d.Props.C156_svg_line",
    "H2d.Props.C156_look",
    "H2d.Props.C156_texts",
    "H2d.Props.C156_arrow_ellipse",
    "H2d.Props.C156_sharp"
   ],
   "note": "C156_sharp: the same place is drawn at different pixels in a rectangle (decimals dropped) and in a segment (nearest pixel). What OpenCV does with the pixels is not modelled."
  },
  {
   "property": "C157",
   "status": "proved",
   "theorems": [
    "H2d.Props.C157_meaning",
    "H2d.Props.C157_lines",
    "H2d.Props.C157_segments",
    "H2d.Props.C157_circles",
    "H2d.Props.C157_polylines",
    "H2d.Props.C157_points",
    "H2d.Props.C157_inside",
    "H2d.Props.C157_rectangles",
    "H2d.Props.C157_measures",
    "H2d.Props.C157_searches",
    "H2d.Props.C157_sharp"
   ],
   "note": "Exact arithmetic: with rounding the results are of course not exactly moved. C157_sharp: in the band of slopes the line through the moved points is not the moved line, so the condition is needed."
  },
  {
   "property": "C158",
   "status": "proved",
   "theorems": [
    "H2d.Props.C158_intersections",
    "H2d.Props.C158_box",
    "H2d.Props.C158_inside",
    "H2d.Props.C158_circle",
    "H2d.Props.C158_inner",
    "H2d.Props.C158_sharp",
    "H2d.Props.C158_float_intersections",
    "H2d.Props.C158_float_inside"
   ],
   "note": "C158_float_*: with rounding, bit for bit (edges longer than twice the null distance for the inside tests). Others: exact arithmetic. For a circle the sides must give right lines (see C01) and the test for its center must not throw: C158_sharp shows a polygon for which the answer is false or an exception depending on the first vertex. For a polygon inside another object no exception may be thrown for its vertices, as the first vertex found outside ends the loop."
  },
  {
   "property": "C159",
   "status": "proved",
   "theorems": [
    "H2d.Props.C159_measures",
    "H2d.Props.C159_points",
    "H2d.Props.C159_answers",
    "H2d.Props.C159_sharp"
   ],
   "note": "Rounded operations, without overflow or underflow, correctly rounded hypot. Lines are not included, as their normalisation uses a constant (the machine epsilon) that does not follow the unit. C159_sharp: with the same threshold two points are equal in one unit and not in the other."
  }
 ]
}