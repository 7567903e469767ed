{
 "claims": [
  {
   "property": "C01",
   "status": "proved",
   "theorems": [
    "Verif.C01_quickselect_order_statistic"
   ],
   "note": ""
  },
  {
   "property": "C02",
   "status": "proved",
   "theorems": [
    "Verif.C02_quickselect_moves_rows"
   ],
   "note": ""
  },
  {
   "property": "C03",
   "status": "proved",
   "theorems": [
    "Verif.C03_heap_is_priority_queue"
   ],
   "note": ""
  },
  {
   "property": "C04",
   "status": "proved",
   "theorems": [
    "Verif.C04_heap_drain_sorts"
   ],
   "note": ""
  },
  {
   "property": "C59",
   "status": "proved",
   "theorems": [
    "Verif.C59_partition"
   ],
   "note": ""
  },
  {
   "property": "C60",
   "status": "partial",
   "theorems": [
    "Verif.C60_nested_iteration_violation",
    "Verif.C60_iteration_complete_partial"
   ],
   "note": "False for nested iteration; witness proved."
  },
  {
   "property": "C05",
   "status": "proved",
   "theorems": [
    "Verif.C05_unionfind_connected"
   ],
   "note": ""
  },
  {
   "property": "C06",
   "status": "proved",
   "theorems": [
    "Verif.C06_find_pure"
   ],
   "note": ""
  },
  {
   "property": "C07",
   "status": "proved",
   "theorems": [
    "Verif.C07_union_result"
   ],
   "note": ""
  },
  {
   "property": "C08",
   "status": "proved",
   "theorems": [
    "Verif.C08_unionfind_depth"
   ],
   "note": ""
  },
  {
   "property": "C61",
   "status": "partial",
   "theorems": [
    "Verif.C61_iterator_violation",
    "Verif.C05_unionfind_connected"
   ],
   "note": "False for one-shot iterators (proved violation); holds for re-iterable arguments by C05."
  },
  {
   "property": "C09",
   "status": "proved",
   "theorems": [
    "Verif.C09_flat_ball_exact"
   ],
   "note": "Distances exact (ordered group), not floating point."
  },
  {
   "property": "C10",
   "status": "proved",
   "theorems": [
    "Verif.C10_hier_ball_exact"
   ],
   "note": ""
  },
  {
   "property": "C11",
   "status": "proved",
   "theorems": [
    "Verif.C11_flat_knn_exact"
   ],
   "note": ""
  },
  {
   "property": "C12",
   "status": "proved",
   "theorems": [
    "Verif.C12_hier_knn_exact"
   ],
   "note": ""
  },
  {
   "property": "C13",
   "status": "proved",
   "theorems": [
    "Verif.C13_flat_build",
    "Verif.C13_hier_build"
   ],
   "note": ""
  },
  {
   "property": "C14",
   "status": "proved",
   "theorems": [
    "Verif.C14_configuration_independent"
   ],
   "note": ""
  },
  {
   "property": "C15",
   "status": "partial",
   "theorems": [
    "Verif.C15_empty_flat_violation",
    "Verif.C15_empty_hier_partial"
   ],
   "note": "False for the flat kind (IndexError proved); holds for the hierarchical kind."
  },
  {
   "property": "C16",
   "status": "proved",
   "theorems": [
    "Verif.C16_zero_capacity_diverges",
    "Verif.C16_triangle_needed"
   ],
   "note": ""
  },
  {
   "property": "C62",
   "status": "partial",
   "theorems": [
    "Verif.C62_leaf_capacity_violation",
    "Verif.C62_flat_leaf_size_partial",
    "Verif.C62_hier_leaf_size_partial"
   ],
   "note": "The documented bound is false for the flat kind (witness proved); the bounds that hold are proved."
  },
  {
   "property": "C29",
   "status": "proved",
   "theorems": [
    "Verif.C29_proximity_net",
    "Verif.C29_proximity_net_covers"
   ],
   "note": ""
  },
  {
   "property": "C30",
   "status": "proved",
   "theorems": [
    "Verif.C30_trivial_cover"
   ],
   "note": ""
  },
  {
   "property": "C31",
   "status": "proved",
   "theorems": [
    "Verif.C31_labels_ascending",
    "Verif.C31_cross_point_order_violation"
   ],
   "note": "The additional docstring sentence about different points is false; counterexample proved."
  },
  {
   "property": "C32",
   "status": "proved",
   "theorems": [
    "Verif.C32_labels_faithful"
   ],
   "note": ""
  },
  {
   "property": "C33",
   "status": "proved",
   "theorems": [
    "Verif.C33_noise"
   ],
   "note": ""
  },
  {
   "property": "C34",
   "status": "proved",
   "theorems": [
    "Verif.C34_graph_nodes"
   ],
   "note": ""
  },
  {
   "property": "C35",
   "status": "proved",
   "theorems": [
    "Verif.C35_graph_edges"
   ],
   "note": ""
  },
  {
   "property": "C36",
   "status": "proved",
   "theorems": [
    "Verif.C36_connected_components"
   ],
   "note": "For every iteration order of the Python set of labels."
  },
  {
   "property": "C37",
   "status": "partial",
   "theorems": [
    "Verif.C37_one_worker",
    "Verif.C37_all_schedules_partial",
    "Verif.C37_progress",
    "Verif.C37_race_violation"
   ],
   "note": "False for wrapped clusterings with several workers (witness schedule proved). Clone is one atomic step; which of several exceptions joblib reports is not modelled."
  },
  {
   "property": "C38",
   "status": "proved",
   "theorems": [
    "Verif.C38_failsafe"
   ],
   "note": ""
  },
  {
   "property": "C39",
   "status": "proved",
   "theorems": [
    "Verif.C39_aggregate_graph",
    "Verif.C39_aggregate_mapper_graph"
   ],
   "note": ""
  },
  {
   "property": "C40",
   "status": "proved",
   "theorems": [
    "Verif.C40_nerve"
   ],
   "note": ""
  },
  {
   "property": "C41",
   "status": "proved",
   "theorems": [
    "Verif.C41_length_mismatch"
   ],
   "note": ""
  },
  {
   "property": "C54",
   "status": "partial",
   "theorems": [
    "Verif.C54_settings_partial",
    "Verif.C54_scaling_ignored",
    "Verif.C54_zero_ignored"
   ],
   "note": "False of the code for zeros and for the scaling switches (both proved)."
  },
  {
   "property": "C55",
   "status": "proved",
   "theorems": [
    "Verif.C55_graph",
    "Verif.C55_labels",
    "Verif.C55_shown",
    "Verif.C55_changes",
    "Verif.C55_refused",
    "Verif.C55_fresh_partial",
    "Verif.C55_redraw_violation",
    "Verif.C55_pending_violation"
   ],
   "note": "The stated property is proved for all histories; the stronger claim (drawn graph belongs to current data) is refuted with two witnesses and proved when data is loaded before the first run."
  },
  {
   "property": "C56",
   "status": "proved",
   "theorems": [
    "Verif.C56_fix_data",
    "Verif.C56_complete",
    "Verif.C56_idempotent"
   ],
   "note": "Exact arithmetic, finite entries, distinct column names."
  },
  {
   "property": "C57",
   "status": "proved",
   "theorems": [
    "Verif.C57_none_iff",
    "Verif.C57_result",
    "Verif.C57_raises",
    "Verif.C57_excluded_unknown"
   ],
   "note": ""
  },
  {
   "property": "C63",
   "status": "proved",
   "theorems": [
    "Verif.C63_repeated_index_self_loop"
   ],
   "note": ""
  },
  {
   "property": "C17",
   "status": "proved",
   "theorems": [
    "Verif.C17_ball_search"
   ],
   "note": "Distances exact (ordered group), not floating point."
  },
  {
   "property": "C18",
   "status": "proved",
   "theorems": [
    "Verif.C18_ball_cover"
   ],
   "note": ""
  },
  {
   "property": "C19",
   "status": "proved",
   "theorems": [
    "Verif.C19_knn_search"
   ],
   "note": ""
  },
  {
   "property": "C20",
   "status": "partial",
   "theorems": [
    "Verif.C20_knn_duplicates_violation",
    "Verif.C20_knn_cover_partial"
   ],
   "note": "False when more than `neighbors` points coincide (witness proved); holds otherwise."
  },
  {
   "property": "C21",
   "status": "proved",
   "theorems": [
    "Verif.C21_search_boxes",
    "Verif.C21_search_hypercube"
   ],
   "note": "Over an ordered field with floor, not floating point."
  },
  {
   "property": "C22",
   "status": "proved",
   "theorems": [
    "Verif.C22_cubical_cover"
   ],
   "note": ""
  },
  {
   "property": "C23",
   "status": "proved",
   "theorems": [
    "Verif.C23_overlap"
   ],
   "note": ""
  },
  {
   "property": "C24",
   "status": "partial",
   "theorems": [
    "Verif.C24_missing_hypercube_violation",
    "Verif.C24_standard_cells_partial"
   ],
   "note": "The documented claim is false (witness proved); exactly one chart per occupied grid cell is proved."
  },
  {
   "property": "C25",
   "status": "proved",
   "theorems": [
    "Verif.C25_proximity_among_standard"
   ],
   "note": ""
  },
  {
   "property": "C26",
   "status": "proved",
   "theorems": [
    "Verif.C26_default_range",
    "Verif.C26_default_accepted",
    "Verif.C26_half_of_cell",
    "Verif.C26_half_of_hypercube_violation"
   ],
   "note": "Over the reals, with Lebesgue measure."
  },
  {
   "property": "C27",
   "status": "proved",
   "theorems": [
    "Verif.C27_validation",
    "Verif.C27_overlap_above_one"
   ],
   "note": ""
  },
  {
   "property": "C28",
   "status": "proved",
   "theorems": [
    "Verif.C28_delegates"
   ],
   "note": ""
  },
  {
   "property": "C64",
   "status": "partial",
   "theorems": [
    "Verif.C64_ball_history",
    "Verif.C64_knn_history",
    "Verif.C64_cubical_history_partial",
    "Verif.C64_cubical_stale_violation"
   ],
   "note": "False for a cubical cover refitted on empty data (witness proved); holds for all other histories."
  },
  {
   "property": "C47",
   "status": "proved",
   "theorems": [
    "Verif.C47_euclidean",
    "Verif.C47_manhattan",
    "Verif.C47_chebyshev",
    "Verif.C47_max_unique"
   ],
   "note": "Over exact reals."
  },
  {
   "property": "C48",
   "status": "proved",
   "theorems": [
    "Verif.C48_special_orders",
    "Verif.C48_metric",
    "Verif.C48_below_one_violation",
    "Verif.C48_negative_violation",
    "Verif.C48_zero"
   ],
   "note": "Over exact reals; the orders for which the result is not a metric are part of the statement."
  },
  {
   "property": "C49",
   "status": "proved",
   "theorems": [
    "Verif.C49_value",
    "Verif.C49_pseudometric",
    "Verif.C49_scaling",
    "Verif.C49_zero_vector"
   ],
   "note": "Over exact reals; rounding that makes 1-similarity negative is not modelled."
  },
  {
   "property": "C50",
   "status": "proved",
   "theorems": [
    "Verif.C50_callable",
    "Verif.C50_unknown",
    "Verif.C50_named",
    "Verif.C50_arguments",
    "Verif.C50_supported"
   ],
   "note": ""
  },
  {
   "property": "C65",
   "status": "proved",
   "theorems": [
    "Verif.C65_named_search",
    "Verif.C65_cosine_search"
   ],
   "note": ""
  },
  {
   "property": "C45",
   "status": "proved",
   "theorems": [
    "Verif.C45_clone"
   ],
   "note": ""
  },
  {
   "property": "C46",
   "status": "partial",
   "theorems": [
    "Verif.C46_get_params",
    "Verif.C46_sequence",
    "Verif.C46_private",
    "Verif.C46_assign",
    "Verif.C46_unknown_partial",
    "Verif.C46_nested_in_plain",
    "Verif.C46_round_trip",
    "Verif.C46_method_name_violation"
   ],
   "note": "Names of methods and names nested in plain parameters are not ignored (proved); everything else holds."
  },
  {
   "property": "C42",
   "status": "proved",
   "theorems": [
    "Verif.C42_graph",
    "Verif.C42_fit_transform",
    "Verif.C42_labels",
    "Verif.C42_history",
    "Verif.C42_history_labels"
   ],
   "note": "For covers and clusterings that meet the scikit-learn contract (fit sets no parameter; labels are a function of parameters and data), jobs run one after the other."
  },
  {
   "property": "C43",
   "status": "proved",
   "theorems": [
    "Verif.C43_rejects",
    "Verif.C43_exactly",
    "Verif.C43_only_finite",
    "Verif.C43_text",
    "Verif.C43_points"
   ],
   "note": "For arrays of numbers; arrays of strings raise TypeError (proved)."
  },
  {
   "property": "C44",
   "status": "partial",
   "theorems": [
    "Verif.C44_objects_partial",
    "Verif.C44_unshared_partial",
    "Verif.C44_violation"
   ],
   "note": "False for a FailSafeClustering around another estimator (witness proved); exactly the wrapped objects can change, so for all other clusterings, including MapperClustering, nothing but the fitted objects does."
  },
  {
   "property": "C51",
   "status": "proved",
   "theorems": [
    "Verif.C51_succeeds",
    "Verif.C51_nodes",
    "Verif.C51_parameters",
    "Verif.C51_edges",
    "Verif.C51_mapper_graph"
   ],
   "note": "Exact numbers, no NaN colours; Plotly's own validation and drawing are not modelled."
  },
  {
   "property": "C52",
   "status": "partial",
   "theorems": [
    "Verif.C52_update_partial",
    "Verif.C52_frame",
    "Verif.C52_title_violation",
    "Verif.C52_partial_update_violation",
    "Verif.C52_colors_violation",
    "Verif.C52_agg_violation",
    "Verif.C52_menu_violation"
   ],
   "note": "What is not asked for stays, for all arguments. That what is asked for is done is proved when colours, aggregation and title are given together or not at all; the other combinations are refuted."
  },
  {
   "property": "C53",
   "status": "proved",
   "theorems": [
    "Verif.C53_positions",
    "Verif.C53_networkx",
    "Verif.C53_unknown_engine",
    "Verif.C53_other_dimension",
    "Verif.C53_negative_seed"
   ],
   "note": "The layout engines are arbitrary functions."
  },
  {
   "property": "C66",
   "status": "partial",
   "theorems": [
    "Verif.C66_color_menu",
    "Verif.C66_color_menu_active",
    "Verif.C66_slider",
    "Verif.C66_cmap_menu",
    "Verif.C66_cmap_menu_active",
    "Verif.C66_active_cmap_violation"
   ],
   "note": "The active entry of the menu of colour scales can differ from the figure (witness proved); everything else holds."
  },
  {
   "property": "C67",
   "status": "proved",
   "theorems": [
    "Verif.C67_update_history"
   ],
   "note": ""
  },
  {
   "property": "C58",
   "status": "proved",
   "theorems": [
    "Verif.C58_page",
    "Verif.C58_colors",
    "Verif.C58_sizes",
    "Verif.C58_equal_sizes",
    "Verif.C58_failure",
    "Verif.C58_hover_size_violation"
   ],
   "note": "math.sqrt is any monotone function with sqrt 1 = 1 (Real.sqrt is one); pyvis' add_node and add_edge are modelled, HTML generation is not."
  },
  {
   "property": "C68",
   "status": "partial",
   "theorems": [
    "Verif.C68_matplotlib_partial",
    "Verif.C68_three_dimensions_violation"
   ],
   "note": "Three dimensions with edges are refuted."
  },
  {
   "property": "C69",
   "status": "proved",
   "theorems": [
    "Verif.C69_succeeds",
    "Verif.C69_contents",
    "Verif.C69_default",
    "Verif.C69_clone",
    "Verif.C69_other_attribute_violation",
    "Verif.C69_attribute_error"
   ],
   "note": "For estimators whose public attributes are those that their constructor assigns, with defaults that are no estimators."
  },
  {
   "property": "C70",
   "status": "proved",
   "theorems": [
    "Verif.C70_graph",
    "Verif.C70_ball",
    "Verif.C70_ball_graph",
    "Verif.C70_cubical",
    "Verif.C70_cubical_graph"
   ],
   "note": "Exact numbers; metrics that are pseudo-metrics."
  },
  {
   "property": "C71",
   "status": "partial",
   "theorems": [
    "Verif.C71_knn_partial",
    "Verif.C71_knn_graph_partial",
    "Verif.C71_knn_violation"
   ],
   "note": "Holds without ties; refuted with ties."
  },
  {
   "property": "C72",
   "status": "partial",
   "theorems": [
    "Verif.C72_standard_partial",
    "Verif.C72_trivial",
    "Verif.C72_ball_partial",
    "Verif.C72_ball_violation",
    "Verif.C72_proximity_violation",
    "Verif.C72_knn_violation"
   ],
   "note": "Holds for the standard cubical cover, the trivial cover and, if nearness is transitive on the rows, for balls; refuted for balls in general, for the proximity cubical cover and for nearest neighbours."
  },
  {
   "property": "C73",
   "status": "proved",
   "theorems": [
    "Verif.C73_ball",
    "Verif.C73_ball_true",
    "Verif.C73_knn",
    "Verif.C73_knn_true",
    "Verif.C73_violation"
   ],
   "note": "Machine numbers are any linear order with an exact value map, exact zero and negation and faithfully rounded subtraction; overflow and NaN are excluded. That the margin is needed is proved by a witness."
  },
  {
   "property": "C74",
   "status": "proved",
   "theorems": [
    "Verif.C74_cover",
    "Verif.C74_charts",
    "Verif.C74_violation"
   ],
   "note": "Numbers with r - r = 0; symmetry is shown to be needed by a witness."
  },
  {
   "property": "C75",
   "status": "proved",
   "theorems": [
    "Verif.C75_nerve",
    "Verif.C75_ball_graph"
   ],
   "note": ""
  },
  {
   "property": "C76",
   "status": "proved",
   "theorems": [
    "Verif.C76_chains",
    "Verif.C76_cover_chains",
    "Verif.C76_ball_steps",
    "Verif.C76_close_points_violation"
   ],
   "note": "That nearness alone does not connect points is proved by a witness."
  },
  {
   "property": "C77",
   "status": "proved",
   "theorems": [
    "Verif.C77_depth",
    "Verif.C77_recursion_limit",
    "Verif.C77_search"
   ],
   "note": ""
  },
  {
   "property": "C78",
   "status": "proved",
   "theorems": [
    "Verif.C78_quickselect",
    "Verif.C78_ball_search",
    "Verif.C78_hier_build",
    "Verif.C78_apply",
    "Verif.C78_cover",
    "Verif.C78_infinite_violation",
    "Verif.C78_nan_violation"
   ],
   "note": "Of comparisons only that < is irreflexive and transitive is used; subtraction is arbitrary. Nearest-neighbour search is C83."
  },
  {
   "property": "C79",
   "status": "proved",
   "theorems": [
    "Verif.C79_succeeds",
    "Verif.C79_colors",
    "Verif.C79_layout",
    "Verif.C79_color_menu",
    "Verif.C79_controls",
    "Verif.C79_run",
    "Verif.C79_seed_violation"
   ],
   "note": "The layout engine, the lenses and the Mapper algorithm are arbitrary with the stated promises. Nodes none of whose points has a value in a column (colour NaN) are excluded; after a run there are none."
  },
  {
   "property": "C80",
   "status": "partial",
   "theorems": [
    "Verif.C80_lazy",
    "Verif.C80_parameters",
    "Verif.C80_cubical",
    "Verif.C80_cubical_search",
    "Verif.C80_ball_partial",
    "Verif.C80_knn_partial",
    "Verif.C80_same_data_partial",
    "Verif.C80_interleaved_violation"
   ],
   "note": "Full for CubicalCover. For BallCover and KNNCover interleaved iterations over different data are refuted."
  },
  {
   "property": "C81",
   "status": "partial",
   "theorems": [
    "Verif.C81_ball_recovers",
    "Verif.C81_knn_recovers",
    "Verif.C81_cubical_recovers",
    "Verif.C81_wrapper",
    "Verif.C81_wrapper_unknown",
    "Verif.C81_ball_partial",
    "Verif.C81_knn_partial",
    "Verif.C81_cubical_partial",
    "Verif.C81_ball_violation",
    "Verif.C81_cubical_violation"
   ],
   "note": "Recovery holds for all covers, the rest in full for CubicalCover; that searches never mix old data with new parameters is refuted for the others."
  },
  {
   "property": "C82",
   "status": "partial",
   "theorems": [
    "Verif.C82_search",
    "Verif.C82_cover_partial",
    "Verif.C82_exact",
    "Verif.C82_uncovered"
   ],
   "note": "The search property holds up to rounding for all inputs; coverage is proved when the overlap fraction exceeds the rounding errors and refuted without that bound (double precision witness). Overflow, underflow and NaN are excluded."
  },
  {
   "property": "C83",
   "status": "partial",
   "theorems": [
    "Verif.C83_knn_search",
    "Verif.C83_apply",
    "Verif.C83_finite_tree",
    "Verif.C83_finite_cover",
    "Verif.C83_knn_exact_partial",
    "Verif.C83_infinite_violation",
    "Verif.C83_nan_violation"
   ],
   "note": "Totality, size and well-formedness hold for every distance function, and exactness for finite distances; with infinite or NaN distances the code violates exactness (witnesses proved)."
  },
  {
   "property": "C84",
   "status": "proved",
   "theorems": [
    "Verif.C84_ball",
    "Verif.C84_cubical",
    "Verif.C84_knn",
    "Verif.C84_ball_components",
    "Verif.C84_cubical_components",
    "Verif.C84_knn_components"
   ],
   "note": "Numbers are exact. cosine is excluded as a metric (it is not one on null vectors). Lenses with more coinciding rows than neighbours are C20."
  },
  {
   "property": "C85",
   "status": "partial",
   "theorems": [
    "Verif.C85_any_order",
    "Verif.C85_symmetric",
    "Verif.C85_self",
    "Verif.C85_cover_partial",
    "Verif.C85_accuracy",
    "Verif.C85_cosine_accuracy",
    "Verif.C85_exact",
    "Verif.C85_search_euclidean",
    "Verif.C85_search_manhattan",
    "Verif.C85_search_chebyshev",
    "Verif.C85_cosine_violation"
   ],
   "note": "Symmetry and accuracy hold in full; zero self-distance and coverage hold for all named metrics but cosine, for which they are refuted in double precision. For cosine the accuracy is that of the radicand, and about the square root of the rounding error when it is not negative. The accuracy of minkowski for p other than 1, 2 and infinity is not stated; with exact arithmetic all metrics agree with the exact model. Fused operations are not modelled."
  },
  {
   "property": "C86",
   "status": "partial",
   "theorems": [
    "Verif.C86_graph",
    "Verif.C86_ball",
    "Verif.C86_ball_scaled",
    "Verif.C86_knn_partial",
    "Verif.C86_cubical_partial",
    "Verif.C86_cubical_violation"
   ],
   "note": "Full for BallCover. For KNNCover without ties (with ties: C71_knn_violation); for the cubical covers unless a column becomes, or ceases to be, narrower than the machine epsilon (refuted by a witness)."
  },
  {
   "property": "C87",
   "status": "partial",
   "theorems": [
    "Verif.C87_tree",
    "Verif.C87_tree_knn",
    "Verif.C87_ball_partial",
    "Verif.C87_ball_rigid",
    "Verif.C87_ball_moved",
    "Verif.C87_knn_partial",
    "Verif.C87_violation",
    "Verif.C87_knn_violation"
   ],
   "note": "Soundness holds for all writes, completeness up to the change of the distances among rows; exact completeness is refuted. The cubical covers copy the data (astype) and are unaffected."
  },
  {
   "property": "C88",
   "status": "proved",
   "theorems": [
    "Verif.C88_result",
    "Verif.C88_build",
    "Verif.C88_search",
    "Verif.C88_cover",
    "Verif.C88_first",
    "Verif.C88_raises",
    "Verif.C88_knn_raises",
    "Verif.C88_bad_row",
    "Verif.C88_knn_bad_row",
    "Verif.C88_cosine"
   ],
   "note": "The bad-row theorem for KNNCover assumes linearly ordered distances."
  },
  {
   "property": "C89",
   "status": "proved",
   "theorems": [
    "Verif.C89_graph",
    "Verif.C89_labels",
    "Verif.C89_ball_clusters"
   ],
   "note": "The inner MapperClustering has no lens of its own: fit(X) uses the points of the chart, as in the code."
  },
  {
   "property": "C90",
   "status": "proved",
   "theorems": [
    "Verif.C90_ball",
    "Verif.C90_cubical_proximity",
    "Verif.C90_cubical_standard",
    "Verif.C90_cubical_outside_violation",
    "Verif.C90_knn_violation"
   ],
   "note": "That the restriction to the bounding box is needed, and that nothing like it holds for KNNCover, is proved by witnesses."
  },
  {
   "property": "C91",
   "status": "partial",
   "theorems": [
    "Verif.C91_colors",
    "Verif.C91_range_partial",
    "Verif.C91_pyvis",
    "Verif.C91_pyvis_none",
    "Verif.C91_agrees",
    "Verif.C91_first_violation",
    "Verif.C91_range_violation",
    "Verif.C91_pyvis_violation"
   ],
   "note": "The colours hold in full. The range of Plotly and Matplotlib is proved if the first node has a colour, and refuted otherwise; that pyvis distinguishes nodes without a colour is refuted."
  },
  {
   "property": "C92",
   "status": "proved",
   "theorems": [
    "Verif.C92_construct",
    "Verif.C92_parameters",
    "Verif.C92_defaults",
    "Verif.C92_ball",
    "Verif.C92_cubical",
    "Verif.C92_knn",
    "Verif.C92_ball_labels",
    "Verif.C92_cubical_labels",
    "Verif.C92_knn_labels",
    "Verif.C92_nothing",
    "Verif.C92_nothing_labels",
    "Verif.C92_one_interval"
   ],
   "note": "Keyword and positional arguments as in Python; the clustering is left at its default."
  },
  {
   "property": "C93",
   "status": "proved",
   "theorems": [
    "Verif.C93_graph",
    "Verif.C93_cubical",
    "Verif.C93_distance",
    "Verif.C93_cosine",
    "Verif.C93_ball",
    "Verif.C93_knn",
    "Verif.C93_default_overlap_violation"
   ],
   "note": "That the overlap fraction has to be given is proved by a witness. Exact numbers; minkowski with p >= 0."
  },
  {
   "property": "C94",
   "status": "partial",
   "theorems": [
    "Verif.C94_graph",
    "Verif.C94_standard_partial",
    "Verif.C94_ball_violation",
    "Verif.C94_proximity_violation",
    "Verif.C94_knn_violation"
   ],
   "note": "Proved for StandardCubicalCover, for both the overlap and the number of intervals, and for any two covers whose charts are nested. Refuted by witnesses for BallCover, ProximityCubicalCover (and so for the default CubicalCover) and KNNCover: these choose their centres one after the other."
  },
  {
   "property": "C95",
   "status": "proved",
   "theorems": [
    "Verif.C95_one_chart",
    "Verif.C95_trivial_cover",
    "Verif.C95_ball_one",
    "Verif.C95_ball_own",
    "Verif.C95_knn_one",
    "Verif.C95_knn_own",
    "Verif.C95_cubical_one",
    "Verif.C95_own_charts"
   ],
   "note": "The clustering is any function that returns one label per row."
  },
  {
   "property": "C96",
   "status": "partial",
   "theorems": [
    "Verif.C96_first",
    "Verif.C96_graph",
    "Verif.C96_figure",
    "Verif.C96_page_partial",
    "Verif.C96_colors_violation",
    "Verif.C96_raises_violation"
   ],
   "note": "Proved of data, graph and statistics, if estimators with the same text compute the same graphs (the graph is kept by the text of the estimator). The figure is proved to be that of a new server if no earlier graph with the same nodes and edges differs; without this it is refuted by witnesses. The module as committed shows only a notice; main is modelled as it would run."
  },
  {
   "property": "C97",
   "status": "partial",
   "theorems": [
    "Verif.C97_mode",
    "Verif.C97_mode_missing",
    "Verif.C97_limits",
    "Verif.C97_beyond",
    "Verif.C97_within",
    "Verif.C97_download_violation",
    "Verif.C97_download_partial"
   ],
   "note": "The download is refuted for data with targets and proved without."
  },
  {
   "property": "C98",
   "status": "proved",
   "theorems": [
    "Verif.C98_params",
    "Verif.C98_graph",
    "Verif.C98_labels",
    "Verif.C98_radius"
   ],
   "note": "Failing calls of set_params are not part of the histories; failing calls of fit are. The fuel of the model has to grow with the number of nested estimators that are replaced."
  },
  {
   "property": "C99",
   "status": "partial",
   "theorems": [
    "Verif.C99_stores",
    "Verif.C99_load",
    "Verif.C99_last",
    "Verif.C99_csv_partial",
    "Verif.C99_csv_violation"
   ],
   "note": "All but the last sentence is proved; that is refuted by a witness, and proved if no example was loaded since the upload."
  },
  {
   "property": "C100",
   "status": "proved",
   "theorems": [
    "Verif.C100_ball",
    "Verif.C100_ball_needed",
    "Verif.C100_radius",
    "Verif.C100_knn",
    "Verif.C100_cubical"
   ],
   "note": "Exact numbers. The clustering gets the rows as before: only the lens is measured with an error. Clusterings that do not depend on the order of the rows, as in C70 and C86."
  },
  {
   "property": "C101",
   "status": "proved",
   "theorems": [
    "Verif.C101_result",
    "Verif.C101_select",
    "Verif.C101_equal",
    "Verif.C101_build",
    "Verif.C101_build_equal"
   ],
   "note": "The comparisons with the pivot in _partition are counted; those of _furthest, one for each call of the distance function, are not."
  },
  {
   "property": "C102",
   "status": "proved",
   "theorems": [
    "Verif.C102_result",
    "Verif.C102_add",
    "Verif.C102_pop",
    "Verif.C102_history"
   ],
   "note": ""
  },
  {
   "property": "C103",
   "status": "proved",
   "theorems": [
    "Verif.C103_add",
    "Verif.C103_pop",
    "Verif.C103_history",
    "Verif.C103_order"
   ],
   "note": ""
  },
  {
   "property": "C104",
   "status": "proved",
   "theorems": [
    "Verif.C104_same",
    "Verif.C104_records",
    "Verif.C104_silent"
   ],
   "note": "For n_jobs=1; with more jobs the records of different charts may come in another order, and those of worker processes elsewhere."
  },
  {
   "property": "C105",
   "status": "partial",
   "theorems": [
    "Verif.C105_run_partial",
    "Verif.C105_shown_partial",
    "Verif.C105_redraw_partial",
    "Verif.C105_run_violation",
    "Verif.C105_shown_violation",
    "Verif.C105_redraw_violation"
   ],
   "note": "Proved for computations that end in the order of the requests, whatever was pending before; refuted by witnesses for other orders."
  },
  {
   "property": "C106",
   "status": "partial",
   "theorems": [
    "Verif.C106_ball_partial",
    "Verif.C106_ball_equal_partial",
    "Verif.C106_cubical_partial",
    "Verif.C106_cubical_equal_partial",
    "Verif.C106_knn_violation",
    "Verif.C106_knn_equal_violation"
   ],
   "note": "Bounds for walks of every length with balls and hypercubes, and equal rows in the same nodes. For KNNCover both are false: for every distance a witness with rows that far apart in one node, and two equal rows of which only one is in a node."
  },
  {
   "property": "C107",
   "status": "proved",
   "theorems": [
    "Verif.C107_steps",
    "Verif.C107_interrupted",
    "Verif.C107_depth_violation"
   ],
   "note": "A model that makes one access to a dict per step; it agrees with the model of whole calls on every reachable object. An invariant without the sizes is kept by every access. The depth bound of C08 is refuted after interrupted unions."
  },
  {
   "property": "C108",
   "status": "partial",
   "theorems": [
    "Verif.C108_finds_partial",
    "Verif.C108_lost_union_violation",
    "Verif.C108_endless_violation",
    "Verif.C108_search_violation"
   ],
   "note": "For any number of threads that call find, under every schedule. With union in one of the threads the property is false of the code: witnesses for a lost union and for searches that never end."
  },
  {
   "property": "C109",
   "status": "partial",
   "theorems": [
    "Verif.C109_shown_partial",
    "Verif.C109_untouched",
    "Verif.C109_once",
    "Verif.C109_same",
    "Verif.C109_results",
    "Verif.C109_error",
    "Verif.C109_default_overlap",
    "Verif.C109_second_violation"
   ],
   "note": "All but one thing is proved: that each such call warns is refuted by a witness for Python's own filters (only the first one does), and proved for the filter always. Python's warnings module is part of the model."
  },
  {
   "property": "C110",
   "status": "partial",
   "theorems": [
    "Verif.C110_kind_partial",
    "Verif.C110_metric_partial",
    "Verif.C110_cubical_partial",
    "Verif.C110_algorithm_partial",
    "Verif.C110_radius_violation",
    "Verif.C110_overlap_violation",
    "Verif.C110_pivoting_violation"
   ],
   "note": "Proved for kind, metric, algorithm and overlap fractions up to 1; refuted for pivoting, radius and overlap fractions above 1, for all data."
  },
  {
   "property": "C111",
   "status": "partial",
   "theorems": [
    "Verif.C111_plot_kind_partial",
    "Verif.C111_update_kind_partial",
    "Verif.C111_plotly_rows_partial",
    "Verif.C111_matplotlib_rows_partial",
    "Verif.C111_pyvis_rows_partial",
    "Verif.C111_empty_partial",
    "Verif.C111_scale_partial",
    "Verif.C111_matplotlib_scale_partial",
    "Verif.C111_pyvis_scale_partial",
    "Verif.C111_extra_violation",
    "Verif.C111_matplotlib_extra_violation",
    "Verif.C111_pyvis_extra_violation"
   ],
   "note": "All but one thing is proved: that colours with too many rows are reported is refuted for all plots and all three backends."
  },
  {
   "property": "C112",
   "status": "partial",
   "theorems": [
    "Verif.C112_ball_partial",
    "Verif.C112_knn_partial",
    "Verif.C112_knn_violation",
    "Verif.C112_cubical_violation"
   ],
   "note": "Proved for BallCover, and for KNNCover with groups of at least `neighbors` rows and no ties; refuted by witnesses for smaller groups and for cubical covers."
  },
  {
   "property": "C113",
   "status": "partial",
   "theorems": [
    "Verif.C113_counts",
    "Verif.C113_cubical",
    "Verif.C113_cubical_degree",
    "Verif.C113_half",
    "Verif.C113_ball_partial",
    "Verif.C113_knn_partial",
    "Verif.C113_ball_violation",
    "Verif.C113_knn_violation"
   ],
   "note": "All bounds are proved for cubical covers of both algorithms, and those on charts and sizes for all covers. That edges grow in proportion to the rows is refuted for BallCover and KNNCover: for every N a dataset of N + 1 rows whose graph is complete with N nodes."
  },
  {
   "property": "C114",
   "status": "partial",
   "theorems": [
    "Verif.C114_standard_charts_partial",
    "Verif.C114_standard_partial",
    "Verif.C114_line_partial",
    "Verif.C114_labels_partial",
    "Verif.C114_ball_violation",
    "Verif.C114_proximity_violation",
    "Verif.C114_corner_violation",
    "Verif.C114_knn_violation"
   ],
   "note": "Proved for the standard cubical cover in any dimension and for both cubical covers with one column. Refuted for BallCover and for the proximity cubical cover with overlap fraction one half, for steps of every length, and by witnesses for the proximity cubical cover with two columns and for KNNCover."
  },
  {
   "property": "C115",
   "status": "proved",
   "theorems": [
    "Verif.C115_data",
    "Verif.C115_message",
    "Verif.C115_graph",
    "Verif.C115_controls",
    "Verif.C115_layout"
   ],
   "note": "Estimators with the same text are assumed to compute the same graphs, and graphs to have distinct nodes (which mapperGraph_nodup shows for Mapper graphs). Which rows the figure is coloured by is the subject of C96."
  },
  {
   "property": "C116",
   "status": "proved",
   "theorems": [
    "Verif.C116_file",
    "Verif.C116_lossless",
    "Verif.C116_page"
   ],
   "note": "The text before compression. networkx' adjacency_data and json.dumps are modelled for the values that occur: booleans, integers, lists and dicts with the eight keys. The page theorem assumes that estimators with the same text compute the same graphs, and that graphs come from mapper_graph."
  },
  {
   "property": "C117",
   "status": "partial",
   "theorems": [
    "Verif.C117_order_partial",
    "Verif.C117_copy",
    "Verif.C117_order_violation"
   ],
   "note": "Proved for estimators given as own parameters of the object and plain values for nested ones. Refuted by a witness for estimators two levels down, whose order matters."
  },
  {
   "property": "C118",
   "status": "partial",
   "theorems": [
    "Verif.C118_page",
    "Verif.C118_ongoing",
    "Verif.C118_click_run",
    "Verif.C118_click_redraw",
    "Verif.C118_run",
    "Verif.C118_draw",
    "Verif.C118_spinners_partial",
    "Verif.C118_upload",
    "Verif.C118_load",
    "Verif.C118_stuck",
    "Verif.C118_stuck_violation",
    "Verif.C118_upload_silent"
   ],
   "note": "Proved unless a drawing raises. Refuted for drawings that raise: the notification stays for ever, for every later history; and for files that cannot be read, which give no message."
  },
  {
   "property": "C119",
   "status": "partial",
   "theorems": [
    "Verif.C119_whole",
    "Verif.C119_end",
    "Verif.C119_params",
    "Verif.C119_others",
    "Verif.C119_graph_partial",
    "Verif.C119_labels_partial",
    "Verif.C119_history_params",
    "Verif.C119_next_graph",
    "Verif.C119_next_labels",
    "Verif.C119_history_graph",
    "Verif.C119_history_labels",
    "Verif.C119_features_violation",
    "Verif.C119_features_labels_violation"
   ],
   "note": "All but one thing is proved: that n_features_in_ belongs to the result is refuted by witnesses for both estimators. One access to an attribute, or one clone, per step, and the steps of the inner clusterings; n_jobs = 1."
  },
  {
   "property": "C120",
   "status": "partial",
   "theorems": [
    "Verif.C120_ends",
    "Verif.C120_no_deadlock",
    "Verif.C120_params",
    "Verif.C120_others",
    "Verif.C120_graph_partial",
    "Verif.C120_labels_partial",
    "Verif.C120_alone_partial",
    "Verif.C120_same_violation",
    "Verif.C120_shared_violation"
   ],
   "note": "Proved for different estimators whose clusterings are no FailSafeClustering around an estimator (the wrapper that failsafe=True makes is covered). Refuted by witnesses for the same estimator in two threads and for a shared FailSafeClustering. Steps as in C119; n_jobs = 1 inside each thread (C37 has the jobs of one call)."
  },
  {
   "property": "C121",
   "status": "proved",
   "theorems": [
    "Verif.C121_ball_search",
    "Verif.C121_knn_search",
    "Verif.C121_ball",
    "Verif.C121_knn",
    "Verif.C121_graph",
    "Verif.C121_precomputed",
    "Verif.C121_scaled",
    "Verif.C121_float"
   ],
   "note": "No law of the distances or of their order is assumed, only that a change of units keeps the order, zero, negatives and differences; that is proved of positive factors in ordered rings and of powers of two with rounding (unbounded exponents). Metrics that raise are not in this model."
  },
  {
   "property": "C122",
   "status": "proved",
   "theorems": [
    "Verif.C122_charts",
    "Verif.C122_search",
    "Verif.C122_graph",
    "Verif.C122_shift_changes"
   ],
   "note": "Binary floating-point numbers of any precision with unbounded exponents: no overflow or underflow. C122_shift_changes shows that the same is false of translations."
  },
  {
   "property": "C123",
   "status": "partial",
   "theorems": [
    "Verif.C123_cubical_partial",
    "Verif.C123_cubical_violation",
    "Verif.C123_distance",
    "Verif.C123_metric"
   ],
   "note": "Proved for BallCover and KNNCover, and for cubical covers (exact arithmetic) if no entry of a reversed column is where two intervals meet. Refuted by a witness for such entries, for both algorithms."
  },
  {
   "property": "C124",
   "status": "partial",
   "theorems": [
    "Verif.C124_graph",
    "Verif.C124_trivial",
    "Verif.C124_ball",
    "Verif.C124_cubical",
    "Verif.C124_knn_violation",
    "Verif.C124_order_violation"
   ],
   "note": "Proved for the trivial cover, BallCover with a positive radius and both algorithms of CubicalCover (exact arithmetic). Refuted by a witness for KNNCover; another witness shows that the order of first occurrences matters."
  },
  {
   "property": "C125",
   "status": "proved",
   "theorems": [
    "Verif.C125_graph",
    "Verif.C125_failsafe",
    "Verif.C125_renumbered"
   ],
   "note": "Labels are unbounded integers; numpy integers overflow only beyond 2^63."
  },
  {
   "property": "C126",
   "status": "partial",
   "theorems": [
    "Verif.C126_graph_partial",
    "Verif.C126_labels_partial",
    "Verif.C126_once",
    "Verif.C126_features_violation"
   ],
   "note": "Proved for graph_ and labels_ under the conditions of C120 (no estimator in two threads, no FailSafeClustering around an estimator, n_jobs=1 in each thread). Refuted by a schedule for graph_ and n_features_in_ together."
  },
  {
   "property": "C127",
   "status": "proved",
   "theorems": [
    "Verif.C127_same_cover",
    "Verif.C127_trivial",
    "Verif.C127_graph",
    "Verif.C127_standard_linkage",
    "Verif.C127_violation"
   ],
   "note": "Extends C94 from the trivial clustering to every clustering with the stated condition. C127_violation shows that the condition is needed."
  },
  {
   "property": "C128",
   "status": "proved",
   "theorems": [
    "Verif.C128_order",
    "Verif.C128_parts",
    "Verif.C128_twins",
    "Verif.C128_parts_violation"
   ],
   "note": "C128_parts_violation shows that the condition on the clustering is needed for parts of charts."
  },
  {
   "property": "C129",
   "status": "partial",
   "theorems": [
    "Verif.C129_never_joins",
    "Verif.C129_exact",
    "Verif.C129_standard_partial",
    "Verif.C129_ball_violation"
   ],
   "note": "Single linkage is given by its specification (two points share a label exactly if they are linked by steps within the threshold). That points within the threshold share a chart is proved for the standard cubical cover; for BallCover it is refuted."
  },
  {
   "property": "C130",
   "status": "proved",
   "theorems": [
    "Verif.C130_each_job",
    "Verif.C130_reported",
    "Verif.C130_fails",
    "Verif.C130_succeeds",
    "Verif.C130_objects_kept",
    "Verif.C130_ends",
    "Verif.C130_stops"
   ],
   "note": "For clusterings that share no fitted object with their clones (C37_race_violation shows that others race). Steps are atomic as in C37; cloning is one step."
  },
  {
   "property": "C131",
   "status": "proved",
   "theorems": [
    "Verif.C131_charts",
    "Verif.C131_cubical",
    "Verif.C131_cubical_line",
    "Verif.C131_ball_line",
    "Verif.C131_levels",
    "Verif.C131_overlap_violation",
    "Verif.C131_knn_violation"
   ],
   "note": "The two violations show that the restriction to overlaps up to one half and the exclusion of KNNCover are needed. Exact arithmetic."
  },
  {
   "property": "C132",
   "status": "proved",
   "theorems": [
    "Verif.C132_paths",
    "Verif.C132_cubical",
    "Verif.C132_ball",
    "Verif.C132_estimator",
    "Verif.C132_estimator_ball",
    "Verif.C132_clustering_violation"
   ],
   "note": "The violation is the last sentence of the property: the trivial clustering is needed. Exact arithmetic."
  },
  {
   "property": "C133",
   "status": "partial",
   "theorems": [
    "Verif.C133_cubical_partial",
    "Verif.C133_line_partial",
    "Verif.C133_paths_partial",
    "Verif.C133_triangle_violation"
   ],
   "note": "Full statement: any overlap fraction up to one half. It is false of the code (C133_triangle_violation), with StandardCubicalCover. Proved with margins of the size of the rounding errors."
  }
 ]
}