c("C01","proved",["C01_quickselect_order_statistic"])
c("C02","proved",["C02_quickselect_moves_rows"])
c("C03","proved",["C03_heap_is_priority_queue"])
c("C04","proved",["C04_heap_drain_sorts"])
c("C59","proved",["C59_partition"])
c("C60","partial",["C60_nested_iteration_violation","C60_iteration_complete_partial"],"False for nested iteration; witness proved.")
c("C05","proved",["C05_unionfind_connected"])
c("C06","proved",["C06_find_pure"])
c("C07","proved",["C07_union_result"])
c("C08","proved",["C08_unionfind_depth"])
c("C61","partial",["C61_iterator_violation","C05_unionfind_connected"],"False for one-shot iterators (proved violation); holds for re-iterable arguments by C05.")
c("C09","proved",["C09_flat_ball_exact"],"Distances exact (ordered group), not floating point.")
c("C10","proved",["C10_hier_ball_exact"])
c("C11","proved",["C11_flat_knn_exact"])
c("C12","proved",["C12_hier_knn_exact"])
c("C13","proved",["C13_flat_build","C13_hier_build"])
c("C14","proved",["C14_configuration_independent"])
c("C15","partial",["C15_empty_flat_violation","C15_empty_hier_partial"],"False for the flat kind (IndexError proved); holds for the hierarchical kind.")
c("C16","proved",["C16_zero_capacity_diverges","C16_triangle_needed"])
c("C62","partial",["C62_leaf_capacity_violation","C62_flat_leaf_size_partial","C62_hier_leaf_size_partial"],"The documented bound is false for the flat kind (witness proved); the bounds that hold are proved.")
c("C29","proved",["C29_proximity_net","C29_proximity_net_covers"])
c("C30","proved",["C30_trivial_cover"])
c("C31","proved",["C31_labels_ascending","C31_cross_point_order_violation"],"The additional docstring sentence about different points is false; counterexample proved.")
c("C32","proved",["C32_labels_faithful"])
c("C33","proved",["C33_noise"])
c("C34","proved",["C34_graph_nodes"])
c("C35","proved",["C35_graph_edges"])
c("C36","proved",["C36_connected_components"],"For every iteration order of the Python set of labels.")
c("C37","partial",["C37_one_worker","C37_all_schedules_partial","C37_progress","C37_race_violation"],"False for wrapped clusterings with several workers (witness schedule proved). Clone is one atomic step; which of several exceptions joblib reports is not modelled.")
c("C38","proved",["C38_failsafe"])
c("C39","proved",["C39_aggregate_graph","C39_aggregate_mapper_graph"])
c("C40","proved",["C40_nerve"])
c("C41","proved",["C41_length_mismatch"])
c("C54","partial",["C54_settings_partial","C54_scaling_ignored","C54_zero_ignored"],"False of the code for zeros and for the scaling switches (both proved).")
c("C55","proved",["C55_graph","C55_labels","C55_shown","C55_changes","C55_refused","C55_fresh_partial","C55_redraw_violation","C55_pending_violation"],"The stated property is proved for all histories; the stronger claim (drawn graph belongs to current data) is refuted with two witnesses and proved when data is loaded before the first run.")
c("C56","proved",["C56_fix_data","C56_complete","C56_idempotent"],"Exact arithmetic, finite entries, distinct column names.")
c("C57","proved",["C57_none_iff","C57_result","C57_raises","C57_excluded_unknown"])
c("C63","proved",["C63_repeated_index_self_loop"])
c("C17","proved",["C17_ball_search"],"Distances exact (ordered group), not floating point.")
c("C18","proved",["C18_ball_cover"])
c("C19","proved",["C19_knn_search"])
c("C20","partial",["C20_knn_duplicates_violation","C20_knn_cover_partial"],"False when more than `neighbors` points coincide (witness proved); holds otherwise.")
c("C21","proved",["C21_search_boxes","C21_search_hypercube"],"Over an ordered field with floor, not floating point.")
c("C22","proved",["C22_cubical_cover"])
c("C23","proved",["C23_overlap"])
c("C24","partial",["C24_missing_hypercube_violation","C24_standard_cells_partial"],"The documented claim is false (witness proved); exactly one chart per occupied grid cell is proved.")
c("C25","proved",["C25_proximity_among_standard"])
c("C26","proved",["C26_default_range","C26_default_accepted","C26_half_of_cell","C26_half_of_hypercube_violation"],"Over the reals, with Lebesgue measure.")
c("C27","proved",["C27_validation","C27_overlap_above_one"])
c("C28","proved",["C28_delegates"])
c("C64","partial",["C64_ball_history","C64_knn_history","C64_cubical_history_partial","C64_cubical_stale_violation"],"False for a cubical cover refitted on empty data (witness proved); holds for all other histories.")
c("C47","proved",["C47_euclidean","C47_manhattan","C47_chebyshev","C47_max_unique"],"Over exact reals.")
c("C48","proved",["C48_special_orders","C48_metric","C48_below_one_violation","C48_negative_violation","C48_zero"],"Over exact reals; the orders for which the result is not a metric are part of the statement.")
c("C49","proved",["C49_value","C49_pseudometric","C49_scaling","C49_zero_vector"],"Over exact reals; rounding that makes 1-similarity negative is not modelled.")
c("C50","proved",["C50_callable","C50_unknown","C50_named","C50_arguments","C50_supported"])
c("C65","proved",["C65_named_search","C65_cosine_search"])
c("C45","proved",["C45_clone"])
c("C46","partial",["C46_get_params","C46_sequence","C46_private","C46_assign","C46_unknown_partial","C46_nested_in_plain","C46_round_trip","C46_method_name_violation"],"Names of methods and names nested in plain parameters are not ignored (proved); everything else holds.")
c("C42","proved",["C42_graph","C42_fit_transform","C42_labels","C42_history","C42_history_labels"],"For covers and clusterings that meet the scikit-learn contract (fit sets no parameter; labels are a function of parameters and data), jobs run one after the other.")
c("C43","proved",["C43_rejects","C43_exactly","C43_only_finite","C43_text","C43_points"],"For arrays of numbers; arrays of strings raise TypeError (proved).")
c("C44","partial",["C44_objects_partial","C44_unshared_partial","C44_violation"],"False for a FailSafeClustering around another estimator (witness proved); exactly the wrapped objects can change, so for all other clusterings, including MapperClustering, nothing but the fitted objects does.")
c("C51","proved",["C51_succeeds","C51_nodes","C51_parameters","C51_edges","C51_mapper_graph"],"Exact numbers, no NaN colours; Plotly's own validation and drawing are not modelled.")
c("C52","partial",["C52_update_partial","C52_frame","C52_title_violation","C52_partial_update_violation","C52_colors_violation","C52_agg_violation","C52_menu_violation"],"What is not asked for stays, for all arguments. That what is asked for is done is proved when colours, aggregation and title are given together or not at all; the other combinations are refuted.")
c("C53","proved",["C53_positions","C53_networkx","C53_unknown_engine","C53_other_dimension","C53_negative_seed"],"The layout engines are arbitrary functions.")
c("C66","partial",["C66_color_menu","C66_color_menu_active","C66_slider","C66_cmap_menu","C66_cmap_menu_active","C66_active_cmap_violation"],"The active entry of the menu of colour scales can differ from the figure (witness proved); everything else holds.")
c("C67","proved",["C67_update_history"])
c("C58","proved",["C58_page","C58_colors","C58_sizes","C58_equal_sizes","C58_failure","C58_hover_size_violation"],"math.sqrt is any monotone function with sqrt 1 = 1 (Real.sqrt is one); pyvis' add_node and add_edge are modelled, HTML generation is not.")
c("C68","partial",["C68_matplotlib_partial","C68_three_dimensions_violation"],"Three dimensions with edges are refuted.")
c("C69","proved",["C69_succeeds","C69_contents","C69_default","C69_clone","C69_other_attribute_violation","C69_attribute_error"],"For estimators whose public attributes are those that their constructor assigns, with defaults that are no estimators.")
c("C70","proved",["C70_graph","C70_ball","C70_ball_graph","C70_cubical","C70_cubical_graph"],"Exact numbers; metrics that are pseudo-metrics.")
c("C71","partial",["C71_knn_partial","C71_knn_graph_partial","C71_knn_violation"],"Holds without ties; refuted with ties.")
c("C72","partial",["C72_standard_partial","C72_trivial","C72_ball_partial","C72_ball_violation","C72_proximity_violation","C72_knn_violation"],"Holds for the standard cubical cover, the trivial cover and, if nearness is transitive on the rows, for balls; refuted for balls in general, for the proximity cubical cover and for nearest neighbours.")
c("C73","proved",["C73_ball","C73_ball_true","C73_knn","C73_knn_true","C73_violation"],"Machine numbers are any linear order with an exact value map, exact zero and negation and faithfully rounded subtraction; overflow and NaN are excluded. That the margin is needed is proved by a witness.")
c("C74","proved",["C74_cover","C74_charts","C74_violation"],"Numbers with r - r = 0; symmetry is shown to be needed by a witness.")
c("C75","proved",["C75_nerve","C75_ball_graph"])
c("C76","proved",["C76_chains","C76_cover_chains","C76_ball_steps","C76_close_points_violation"],"That nearness alone does not connect points is proved by a witness.")
c("C77","proved",["C77_depth","C77_recursion_limit","C77_search"])
c("C78","proved",["C78_quickselect","C78_ball_search","C78_hier_build","C78_apply","C78_cover","C78_infinite_violation","C78_nan_violation"],"Of comparisons only that < is irreflexive and transitive is used; subtraction is arbitrary. Nearest-neighbour search is C83.")
c("C79","proved",["C79_succeeds","C79_colors","C79_layout","C79_color_menu","C79_controls","C79_run","C79_seed_violation"],"The layout engine, the lenses and the Mapper algorithm are arbitrary with the stated promises. Nodes none of whose points has a value in a column (colour NaN) are excluded; after a run there are none.")
c("C80","partial",["C80_lazy","C80_parameters","C80_cubical","C80_cubical_search","C80_ball_partial","C80_knn_partial","C80_same_data_partial","C80_interleaved_violation"],"Full for CubicalCover. For BallCover and KNNCover interleaved iterations over different data are refuted.")
c("C81","partial",["C81_ball_recovers","C81_knn_recovers","C81_cubical_recovers","C81_wrapper","C81_wrapper_unknown","C81_ball_partial","C81_knn_partial","C81_cubical_partial","C81_ball_violation","C81_cubical_violation"],"Recovery holds for all covers, the rest in full for CubicalCover; that searches never mix old data with new parameters is refuted for the others.")
c("C82","partial",["C82_search","C82_cover_partial","C82_exact","C82_uncovered"],"The search property holds up to rounding for all inputs; coverage is proved when the overlap fraction exceeds the rounding errors and refuted without that bound (double precision witness). Overflow, underflow and NaN are excluded.")
c("C83","partial",["C83_knn_search","C83_apply","C83_finite_tree","C83_finite_cover","C83_knn_exact_partial","C83_infinite_violation","C83_nan_violation"],"Totality, size and well-formedness hold for every distance function, and exactness for finite distances; with infinite or NaN distances the code violates exactness (witnesses proved).")
c("C84","proved",["C84_ball","C84_cubical","C84_knn","C84_ball_components","C84_cubical_components","C84_knn_components"],"Numbers are exact. cosine is excluded as a metric (it is not one on null vectors). Lenses with more coinciding rows than neighbours are C20.")
c("C85","partial",["C85_any_order","C85_symmetric","C85_self","C85_cover_partial","C85_accuracy","C85_cosine_accuracy","C85_exact","C85_search_euclidean","C85_search_manhattan","C85_search_chebyshev","C85_cosine_violation"],"Symmetry and accuracy hold in full; zero self-distance and coverage hold for all named metrics but cosine, for which they are refuted in double precision. For cosine the accuracy is that of the radicand, and about the square root of the rounding error when it is not negative. The accuracy of minkowski for p other than 1, 2 and infinity is not stated; with exact arithmetic all metrics agree with the exact model. Fused operations are not modelled.")
c("C86","partial",["C86_graph","C86_ball","C86_ball_scaled","C86_knn_partial","C86_cubical_partial","C86_cubical_violation"],"Full for BallCover. For KNNCover without ties (with ties: C71_knn_violation); for the cubical covers unless a column becomes, or ceases to be, narrower than the machine epsilon (refuted by a witness).")
c("C87","partial",["C87_tree","C87_tree_knn","C87_ball_partial","C87_ball_rigid","C87_ball_moved","C87_knn_partial","C87_violation","C87_knn_violation"],"Soundness holds for all writes, completeness up to the change of the distances among rows; exact completeness is refuted. The cubical covers copy the data (astype) and are unaffected.")
c("C88","proved",["C88_result","C88_build","C88_search","C88_cover","C88_first","C88_raises","C88_knn_raises","C88_bad_row","C88_knn_bad_row","C88_cosine"],"The bad-row theorem for KNNCover assumes linearly ordered distances.")
c("C89","proved",["C89_graph","C89_labels","C89_ball_clusters"],"The inner MapperClustering has no lens of its own: fit(X) uses the points of the chart, as in the code.")
c("C90","proved",["C90_ball","C90_cubical_proximity","C90_cubical_standard","C90_cubical_outside_violation","C90_knn_violation"],"That the restriction to the bounding box is needed, and that nothing like it holds for KNNCover, is proved by witnesses.")
c("C91","partial",["C91_colors","C91_range_partial","C91_pyvis","C91_pyvis_none","C91_agrees","C91_first_violation","C91_range_violation","C91_pyvis_violation"],"The colours hold in full. The range of Plotly and Matplotlib is proved if the first node has a colour, and refuted otherwise; that pyvis distinguishes nodes without a colour is refuted.")
c("C92","proved",["C92_construct","C92_parameters","C92_defaults","C92_ball","C92_cubical","C92_knn","C92_ball_labels","C92_cubical_labels","C92_knn_labels","C92_nothing","C92_nothing_labels","C92_one_interval"],"Keyword and positional arguments as in Python; the clustering is left at its default.")
c("C93","proved",["C93_graph","C93_cubical","C93_distance","C93_cosine","C93_ball","C93_knn","C93_default_overlap_violation"],"That the overlap fraction has to be given is proved by a witness. Exact numbers; minkowski with p >= 0.")
c("C94","partial",["C94_graph","C94_standard_partial","C94_ball_violation","C94_proximity_violation","C94_knn_violation"],"Proved for StandardCubicalCover, for both the overlap and the number of intervals, and for any two covers whose charts are nested. Refuted by witnesses for BallCover, ProximityCubicalCover (and so for the default CubicalCover) and KNNCover: these choose their centres one after the other.")
c("C95","proved",["C95_one_chart","C95_trivial_cover","C95_ball_one","C95_ball_own","C95_knn_one","C95_knn_own","C95_cubical_one","C95_own_charts"],"The clustering is any function that returns one label per row.")
c("C96","partial",["C96_first","C96_graph","C96_figure","C96_page_partial","C96_colors_violation","C96_raises_violation"],"Proved of data, graph and statistics, if estimators with the same text compute the same graphs (the graph is kept by the text of the estimator). The figure is proved to be that of a new server if no earlier graph with the same nodes and edges differs; without this it is refuted by witnesses. The module as committed shows only a notice; main is modelled as it would run.")
c("C97","partial",["C97_mode","C97_mode_missing","C97_limits","C97_beyond","C97_within","C97_download_violation","C97_download_partial"],"The download is refuted for data with targets and proved without.")
c("C98","proved",["C98_params","C98_graph","C98_labels","C98_radius"],"Failing calls of set_params are not part of the histories; failing calls of fit are. The fuel of the model has to grow with the number of nested estimators that are replaced.")
c("C99","partial",["C99_stores","C99_load","C99_last","C99_csv_partial","C99_csv_violation"],"All but the last sentence is proved; that is refuted by a witness, and proved if no example was loaded since the upload.")
c("C100","proved",["C100_ball","C100_ball_needed","C100_radius","C100_knn","C100_cubical"],"Exact numbers. The clustering gets the rows as before: only the lens is measured with an error. Clusterings that do not depend on the order of the rows, as in C70 and C86.")
c("C101","proved",["C101_result","C101_select","C101_equal","C101_build","C101_build_equal"],"The comparisons with the pivot in _partition are counted; those of _furthest, one for each call of the distance function, are not.")
c("C102","proved",["C102_result","C102_add","C102_pop","C102_history"],"")
c("C103","proved",["C103_add","C103_pop","C103_history","C103_order"],"")
c("C104","proved",["C104_same","C104_records","C104_silent"],"For n_jobs=1; with more jobs the records of different charts may come in another order, and those of worker processes elsewhere.")
c("C105","partial",["C105_run_partial","C105_shown_partial","C105_redraw_partial","C105_run_violation","C105_shown_violation","C105_redraw_violation"],"Proved for computations that end in the order of the requests, whatever was pending before; refuted by witnesses for other orders.")
c("C106","partial",["C106_ball_partial","C106_ball_equal_partial","C106_cubical_partial","C106_cubical_equal_partial","C106_knn_violation","C106_knn_equal_violation"],"Bounds for walks of every length with balls and hypercubes, and equal rows in the same nodes. For KNNCover both are false: for every distance a witness with rows that far apart in one node, and two equal rows of which only one is in a node.")
c("C107","proved",["C107_steps","C107_interrupted","C107_depth_violation"],"A model that makes one access to a dict per step; it agrees with the model of whole calls on every reachable object. An invariant without the sizes is kept by every access. The depth bound of C08 is refuted after interrupted unions.")
c("C108","partial",["C108_finds_partial","C108_lost_union_violation","C108_endless_violation","C108_search_violation"],"For any number of threads that call find, under every schedule. With union in one of the threads the property is false of the code: witnesses for a lost union and for searches that never end.")
c("C109","partial",["C109_shown_partial","C109_untouched","C109_once","C109_same","C109_results","C109_error","C109_default_overlap","C109_second_violation"],"All but one thing is proved: that each such call warns is refuted by a witness for Python's own filters (only the first one does), and proved for the filter always. Python's warnings module is part of the model.")
c("C110","partial",["C110_kind_partial","C110_metric_partial","C110_cubical_partial","C110_algorithm_partial","C110_radius_violation","C110_overlap_violation","C110_pivoting_violation"],"Proved for kind, metric, algorithm and overlap fractions up to 1; refuted for pivoting, radius and overlap fractions above 1, for all data.")
c("C111","partial",["C111_plot_kind_partial","C111_update_kind_partial","C111_plotly_rows_partial","C111_matplotlib_rows_partial","C111_pyvis_rows_partial","C111_empty_partial","C111_scale_partial","C111_matplotlib_scale_partial","C111_pyvis_scale_partial","C111_extra_violation","C111_matplotlib_extra_violation","C111_pyvis_extra_violation"],"All but one thing is proved: that colours with too many rows are reported is refuted for all plots and all three backends.")
c("C112","partial",["C112_ball_partial","C112_knn_partial","C112_knn_violation","C112_cubical_violation"],"Proved for BallCover, and for KNNCover with groups of at least `neighbors` rows and no ties; refuted by witnesses for smaller groups and for cubical covers.")
c("C113","partial",["C113_counts","C113_cubical","C113_cubical_degree","C113_half","C113_ball_partial","C113_knn_partial","C113_ball_violation","C113_knn_violation"],"All bounds are proved for cubical covers of both algorithms, and those on charts and sizes for all covers. That edges grow in proportion to the rows is refuted for BallCover and KNNCover: for every N a dataset of N + 1 rows whose graph is complete with N nodes.")
c("C114","partial",["C114_standard_charts_partial","C114_standard_partial","C114_line_partial","C114_labels_partial","C114_ball_violation","C114_proximity_violation","C114_corner_violation","C114_knn_violation"],"Proved for the standard cubical cover in any dimension and for both cubical covers with one column. Refuted for BallCover and for the proximity cubical cover with overlap fraction one half, for steps of every length, and by witnesses for the proximity cubical cover with two columns and for KNNCover.")
c("C115","proved",["C115_data","C115_message","C115_graph","C115_controls","C115_layout"],"Estimators with the same text are assumed to compute the same graphs, and graphs to have distinct nodes (which mapperGraph_nodup shows for Mapper graphs). Which rows the figure is coloured by is the subject of C96.")
c("C116","proved",["C116_file","C116_lossless","C116_page"],"The text before compression. networkx' adjacency_data and json.dumps are modelled for the values that occur: booleans, integers, lists and dicts with the eight keys. The page theorem assumes that estimators with the same text compute the same graphs, and that graphs come from mapper_graph.")
c("C117","partial",["C117_order_partial","C117_copy","C117_order_violation"],"Proved for estimators given as own parameters of the object and plain values for nested ones. Refuted by a witness for estimators two levels down, whose order matters.")
c("C118","partial",["C118_page","C118_ongoing","C118_click_run","C118_click_redraw","C118_run","C118_draw","C118_spinners_partial","C118_upload","C118_load","C118_stuck","C118_stuck_violation","C118_upload_silent"],"Proved unless a drawing raises. Refuted for drawings that raise: the notification stays for ever, for every later history; and for files that cannot be read, which give no message.")
c("C119","partial",["C119_whole","C119_end","C119_params","C119_others","C119_graph_partial","C119_labels_partial","C119_history_params","C119_next_graph","C119_next_labels","C119_history_graph","C119_history_labels","C119_features_violation","C119_features_labels_violation"],"All but one thing is proved: that n_features_in_ belongs to the result is refuted by witnesses for both estimators. One access to an attribute, or one clone, per step, and the steps of the inner clusterings; n_jobs = 1.")
c("C120","partial",["C120_ends","C120_no_deadlock","C120_params","C120_others","C120_graph_partial","C120_labels_partial","C120_alone_partial","C120_same_violation","C120_shared_violation"],"Proved for different estimators whose clusterings are no FailSafeClustering around an estimator (the wrapper that failsafe=True makes is covered). Refuted by witnesses for the same estimator in two threads and for a shared FailSafeClustering. Steps as in C119; n_jobs = 1 inside each thread (C37 has the jobs of one call).")
c("C121","proved",["C121_ball_search","C121_knn_search","C121_ball","C121_knn","C121_graph","C121_precomputed","C121_scaled","C121_float"],"No law of the distances or of their order is assumed, only that a change of units keeps the order, zero, negatives and differences; that is proved of positive factors in ordered rings and of powers of two with rounding (unbounded exponents). Metrics that raise are not in this model.")
c("C122","proved",["C122_charts","C122_search","C122_graph","C122_shift_changes"],"Binary floating-point numbers of any precision with unbounded exponents: no overflow or underflow. C122_shift_changes shows that the same is false of translations.")
c("C123","partial",["C123_cubical_partial","C123_cubical_violation","C123_distance","C123_metric"],"Proved for BallCover and KNNCover, and for cubical covers (exact arithmetic) if no entry of a reversed column is where two intervals meet. Refuted by a witness for such entries, for both algorithms.")
c("C124","partial",["C124_graph","C124_trivial","C124_ball","C124_cubical","C124_knn_violation","C124_order_violation"],"Proved for the trivial cover, BallCover with a positive radius and both algorithms of CubicalCover (exact arithmetic). Refuted by a witness for KNNCover; another witness shows that the order of first occurrences matters.")
c("C125","proved",["C125_graph","C125_failsafe","C125_renumbered"],"Labels are unbounded integers; numpy integers overflow only beyond 2^63.")
c("C126","partial",["C126_graph_partial","C126_labels_partial","C126_once","C126_features_violation"],"Proved for graph_ and labels_ under the conditions of C120 (no estimator in two threads, no FailSafeClustering around an estimator, n_jobs=1 in each thread). Refuted by a schedule for graph_ and n_features_in_ together.")
c("C127","proved",["C127_same_cover","C127_trivial","C127_graph","C127_standard_linkage","C127_violation"],"Extends C94 from the trivial clustering to every clustering with the stated condition. C127_violation shows that the condition is needed.")
c("C128","proved",["C128_order","C128_parts","C128_twins","C128_parts_violation"],"C128_parts_violation shows that the condition on the clustering is needed for parts of charts.")
c("C129","partial",["C129_never_joins","C129_exact","C129_standard_partial","C129_ball_violation"],"Single linkage is given by its specification (two points share a label exactly if they are linked by steps within the threshold). That points within the threshold share a chart is proved for the standard cubical cover; for BallCover it is refuted.")
c("C130","proved",["C130_each_job","C130_reported","C130_fails","C130_succeeds","C130_objects_kept","C130_ends","C130_stops"],"For clusterings that share no fitted object with their clones (C37_race_violation shows that others race). Steps are atomic as in C37; cloning is one step.")
c("C131","proved",["C131_charts","C131_cubical","C131_cubical_line","C131_ball_line","C131_levels","C131_overlap_violation","C131_knn_violation"],"The two violations show that the restriction to overlaps up to one half and the exclusion of KNNCover are needed. Exact arithmetic.")
c("C132","proved",["C132_paths","C132_cubical","C132_ball","C132_estimator","C132_estimator_ball","C132_clustering_violation"],"The violation is the last sentence of the property: the trivial clustering is needed. Exact arithmetic.")
c("C133","partial",["C133_cubical_partial","C133_line_partial","C133_paths_partial","C133_triangle_violation"],"Full statement: any overlap fraction up to one half. It is false of the code (C133_triangle_violation), with StandardCubicalCover. Proved with margins of the size of the rounding errors.")
