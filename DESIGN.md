# Formal model of tda-mapper-python: design

## What is modelled, and how

The Python code under `/repo/src/tdamapper` is transcribed function by function
into Lean 4 definitions (`lean/Verif/Model/*.lean`). Each definition cites the
file and lines it models and states every simplification.

Conventions:

* **Errors are values.** `Py α = Except PyErr α`; list indexing, dictionary
  lookup, division and explicit `raise` return the corresponding `PyErr`.
* **Loops** whose termination is part of a claim run on explicit fuel and
  return `PyErr.diverge` if it runs out. The top-level function supplies a
  computed bound; the theorems show that `diverge` is never returned.
* **Arrays** are `List`s with failing `getItem` / `setItem`.
  **Python dicts** are ordered association lists (insertion order, last-in
  first-out `popitem`).
* **Distances** are elements of a type `R` with a decidable order, zero, negation and
  subtraction, of which the model assumes no law. Most theorems take `R` to be a linearly
  ordered abelian group (exact numbers); C73 and C74 take it to be machine numbers with
  rounded subtraction (`Spec/Rounding`), and C78 numbers with infinities and NaN
  (`Spec/Numbers`). The cubical covers use an arbitrary ordered field with floor; the metrics use
  the real numbers, and in C85 floating-point numbers. `float("inf")` is an explicit extra value.
* **Random draws** (`randrange`) come from an oracle `ρ : ℕ → ℕ`, read in
  sequence; theorems hold for every `ρ`.
* **User-supplied components** (metric, cover, clustering, aggregation) are
  arbitrary functions, quantified over in the theorems.

Layout: `Verif/Py.lean` (Python basics), `Verif/Model/` (the code),
`Verif/Spec/` (specifications that do not mention the model),
`Verif/Proof/` (lemmas), `Verif/Props/` (one file per group of properties; the
theorems named in `MANIFEST.json`, each with a concrete non-vacuity example).

## Properties: what is modelled and how it is proved

| id | modelled | proof |
|----|----------|-------|
| C01, C02, C59 | `quickselect.py` incl. companion arrays | loop invariant of `_partition`; measure `2*(end-start)+[data[k] is the last maximal]`; permutation of positions as `Equiv.Perm ℕ` |
| C03, C04, C60 | `heap.py` on arrays | heap-order-except-at-i invariant of bubble up/down; refinement to multiset; shared iterator as explicit state |
| C05–C08, C61 | `unionfind.py`, parent and size dictionaries | forest invariant with rank measure; ghost relation `EqvGen` of united pairs; size sums |
| C09, C11 | `vptree_flat/*` with the explicit stack | inductive predicate on array ranges established by the builder; search = fold over the tree; triangle inequality for pruning |
| C10, C12 | `vptree_hier/*` | structural induction over the tree |
| C13, C62 | both builders | strong induction over range length, frame lemmas |
| C14, C15, C16 | `vptree.py` dispatcher | corollaries; counterexamples evaluated in the kernel; divergence by induction over fuel |
| C17–C20, C64 | `cover.py` `BallCover`, `KNNCover` | corollaries of C09–C12, plus proximity-net invariant; induction over histories of fits |
| C21–C28, C64 | `cover.py` cubical covers | ordered-field geometry, floor lemmas, Chebyshev pullback is a pseudo-metric; Lebesgue measure for the default overlap |
| C29, C30, C63 | `core.py` `proximity_net`, `TrivialCover` | loop invariant |
| C31–C36, C39–C41 | `core.py` | loop invariants over charts; union-find correctness; reachability |
| C37 | `core.py` with `joblib` threads | small-step interleaving semantics over a shared heap of estimator objects; ownership invariant |
| C38 | `FailSafeClustering` | case analysis over the outcome of the wrapped fit |
| C42–C46, C69 | `_common.py`, `learn.py` over an object heap | heap frame lemmas; induction over histories of `fit` and `set_params` calls |
| C47–C50, C65 | `metrics.py`, `_metrics.py` over ℝ | Minkowski inequality from Mathlib, Cauchy–Schwarz |
| C51–C53, C66, C67 | `plot.py`, `plot_plotly.py`: figures as data, Plotly's restyle commands interpreted | list lemmas; commuting setters; induction over histories of updates |
| C79 | `create_mapper_figure`: tables side by side, drawn by the model of `plot_plotly` | from C51, C53, C56, C57, C66 |
| C80 | covers as objects with attributes, generators as suspended loops over them; `CubicalCover` with all its delegates | invariant of histories: what a generator has left to yield |
| C81 | `fit` attribute by attribute, with the state left when it raises | case analysis of the points of failure |
| C82 | every operation of the cubical covers as one rounded operation (`Machine`); binary numbers rounded to nearest even (`Bin`) | error analysis of centres, coordinates and distances; searches with a computed distance |
| C83 | the two nearest neighbour searches with the starting radius an explicit number `inf` (`Model/KnnInf`) | heaps and searches with only an irreflexive, transitive `<`; an embedding of the finite numbers into the floating-point ones commutes with building and both searches |
| C84 | the covers as classes of the world of the estimators (`Model/Library`): attributes read and converted, `apply` on the rows of the validated array | composition of C42 (estimators), validation, C18/C20/C22–C28 (covers) and C75/C76 (nerve); attributes of a clone agree on public names |
| C85 | `_metrics.py` on numbers that round and may be NaN; library routines are a parameter, additions in any order (`Model/MetricsFloat`); correctly rounded square root on binary numbers | sign symmetry of the operations; error bounds by induction on the order of addition; composition with C73 and C78; double-precision witness for `cosine` by kernel evaluation |
| C86 | the covers on two lenses at once, related row by row (`Spec/Units`) | both executions of `proximity_net` in lockstep; cells, boxes and bounds commute with affine maps of a column; witness by kernel evaluation |
| C87 | rows as addresses in a memory that changes between fit and search (`Model/InPlace`) | the invariants of C14–C19 with one distance for the tree and another for the search; the triangle inequality up to the change; witness by kernel evaluation |
| C88 | the trees and covers as computations that call the distance function (`Model/Calls`) | the results are those of the other model; the list of calls by induction over the construction and the trees; an exception cuts the list at the first call that raises |
| C89 | `MapperClustering.fit` as the `fit` of a clustering on the heap (`fitObj` in `Model/Learn`), also in the step semantics of the jobs | the specification of the `fit` of a clustering by induction over the depth of nesting; the clusters from C32, C34, C35, C76 and C84 |
| C90 | no new code: the covers and the graph on `X` and on `X ++ Z` | the centres of a proximity net on `X` are a prefix of those on `X ++ Z`, the landmarks of the standard cubical cover likewise; then C75 and C76 |
| C91 | `aggregate_graph` with `np.nanmean`; Python's `min`, `max` and the scans of the three backends on numbers that may be NaN (`Model/PlotNan`) | folds whose accumulator is a number keep the least number; a NaN accumulator stays; agreement with the models without NaN (`C91_agrees`) |
| C92 | the signatures and calls of the constructors (`Model/Construct`), making objects on the heap of `Model/Objects` | binding of arguments by cases on the signature; then C84 for the new estimator, C75 and C76 for its graph |
| C93 | no new code: the covers on two lenses of different width (`Spec/Columns`) | equal columns have equal bounds and cell numbers, flat ones none that count; both executions in lockstep as for C86; sums over injections for the distances |
| C94 | no new code: two runs with the trivial clustering on one dataset (`Spec/Refine`) | nested charts give a map of nerves (C75) and of chains (C76); a hypercube lies in the hypercube of the same row on the coarser grid; the other covers by witnesses |
| C95 | no new code: covers with one chart, or one chart per row (`Spec/Extreme`) | the loop of `proximity_net` when the first answer has all rows, or each answer one; then C32 to C36 for the labels, the graph and the components |
| C96 | `app/streamlit_app.py`: the script `main`, with `st.cache_data` as maps kept by the server (`Model/Streamlit`); a page without caches (`Spec/Streamlit`) | invariant of the caches over all histories of pages: every entry was computed by some earlier page with the same key; then by cases on hits and misses; witnesses for the keys that say too little |
| C97 | the limits, `mode`, and the table that is downloaded (`Model/Streamlit`) | limits: from the invariant of C96; mode: induction on the sorted distinct values; download: witness |
| C98 | histories that mix `fit` and `set_params` (`Spec/UserHistory`, over `Model/Learn` and `Model/Objects`) | invariant: the public attributes of the heap agree with those of a heap on which only `set_params` acts, and nesting stays bounded and free of cycles; then C42, and C84 for the ball cover |
| C99 | `load_data` and `upload_file` in histories of the page (`Model/App`, `Spec/AppLoad`) | one step by cases, then induction on the history from its end; witness for the file that is not used |
| C100 | the covers on two lenses whose rows correspond (`Spec/Noise`) | distances change by at most twice the movement; then the pairs of rows that are compared are the same (C86); for the cubical covers cells and boxes of corresponding rows are compared and both loops run in step |
| C101 | quickselect and the construction of trees as computations that ask for their comparisons (`Model/Compare`) | the results are those of the other model; each pass shortens the range, by one if the entries are equal; the bound on trees by splitting the squares |
| C102 | `MaxHeap` with comparisons that may answer anything (`Model/HeapAny`) | the results are those of `Model/Heap` for an order; the depth of the current position decreases (adding) or increases (removing) with each step |
| C103 | the same model, an exception leaving the heap as it is at that point | each method only permutes the list after the item was appended or removed; histories by induction |
| C104 | `mapper_graph` with `FailSafeClustering`, returning the records logged (`Model/Logging`) | first component: the other model; second: induction over the charts |
| C105 | the page of C55, with any number of waiting handlers that go on in any order | invariant of the queue of waiting handlers after the last request; witnesses for other orders |
| C106 | the graph of C34, C35 on the charts of C18, C22; walks and rows of nodes in `Spec/Local` | two rows of a node share a chart; induction on the walk with the triangle inequality; witnesses for `KNNCover` |
| C107 | `Model/UnionFindSteps`: the calls of a UnionFind as programs that make one access to a dict per step; a history of calls abandoned after any number of steps | invariant without the sizes, kept by every step; refinement to the model of whole calls |
| C108 | any number of such calls, interleaved by any schedule | for searches: invariant, and a measure of the accesses left that no other thread increases; witnesses for unions |
| C109 | histories of cubical covers, generators and warning filters, with the registries of Python's `warnings` | induction over the history: the number of warnings shown as a function of the number of fits above one half; witness for the second fit |
| C110 | Whole programs, from the constructors on, with an illegal value among the arguments. The errors of the models of the covers are carried through `apply`, `mapper_labels` and the estimator, for every string that is not a legal value. That illegal values of `pivoting`, `radius` and `overlap_frac` above 1 are accepted is proved for all data. |
| C111 | The models of the three backends with wrong arguments. The arguments that are wrong are an inductive type of the specification. That a point without a row raises is an induction over the loop of `aggregate_graph`; that further rows change nothing is an equation between whole plots. |
| C112 | two runs of Mapper, one on some of the rows of the other | the centres of the proximity net of the part are those of the whole that lie in it (strong induction over the rows); correspondence of local labels, then of labels, nodes, edges and components; witnesses for small groups and hypercubes |
| C113 | numbers of charts, labels, nodes and edges of a whole run | double counting of rows and nodes; integers in an open interval for the cells whose boxes contain a row, products over the columns; complete graphs on star metrics as witnesses |
| C114 | chains of close rows through a whole run | the box of a row's own cell contains all rows within half an overlap (a Lebesgue number); case distinction on the distance of two cells of a line; greedy nets with two charts as witnesses for every step length |
| C115 | pages of the Streamlit app after any history | the caches only hold what was computed for their keys (as for C96); an unbounded cache keeps its first entry for a key; sorting makes the key of a graph independent of the order of its nodes and edges |
| C116 | the JSON text of `adjacency_data` | texts of values are self-delimiting (digits end before a comma or bracket, keys at their quote): mutual induction over documents; a document determines the attributes and neighbours in order; loops of `mapper_graph` keep nodes and neighbours aligned |
| C117 | `set_params` on the heap of `Model/Objects` | a call is own parameters first, then nested ones, one at a time; assignments to different attributes commute and keep what names stand for: induction on permutations; refuted for estimators two levels down |
| C118 | the handlers of `app.py` with their notifications (`Model/AppNotes`, `Spec/AppNotes`) | forgetting notifications gives `Model/App`; invariant: handlers of waiting tasks have different notifications, and those that wait for a drawing have stopped their own; induction on the history; a notification no handler holds never changes again; witness |
| C119 | `fit` as a sequence of single heap accesses, stopped after any number (`Model/Interrupt`, `Spec/Interrupt`) | the steps run to the end are `fit`; an invariant holds along the whole trace (`Proof/Interrupt`: `Along`): heap well formed, public attributes kept, results old or complete; induction on the history; witness between the last two writes |
| C120 | the threads of the user: one heap, the steps of `fit` of each call, schedules (`Model/Threads`, `Spec/Threads`) | every thread owns its estimator and the objects it creates; weakest preconditions of its steps over what it owns (`Proof/JobsOwn`, `ThreadsFit`, `ThreadsTop`, `Watched`, `WatchedTop`), for every heap that other threads may leave; disjoint ownership is an invariant of all schedules (`Proof/Threads`); termination: every step makes one thread shorter; witnesses for the two ways of sharing |
| C121 | the models of trees and covers as they are, for two types of points and of distances (`Spec/Isometry`) | naturality: every function of the trees, for any map of the points and any change of units of the distances (`Proof/Isometry`); two datasets with the same distances are both images of the row numbers; powers of two: rounding commutes with them (`Proof/BinaryUnit`) |
| C122 | the cubical covers on rounded numbers (`Model/CubicalFloat`, `Model/Binary`; `Spec/BinaryUnit`) | the bounds and the centres of the boxes move along and the coordinates in the grid are the same numbers (`Proof/CubicalShift`), then C121's naturality; a witness for translations |
| C123 | the cubical covers with exact numbers and the metrics of the library as they are (`Spec/Mirror`) | cells and boxes of mirrored columns are the mirrored cells and boxes unless an entry is on a boundary (`Proof/Mirror`); each metric is invariant, then C121; a witness for an entry on a boundary |
| C124 | datasets with and without copies of rows, read side by side (`Spec/Repeat`) | the loops of `proximity_net` and of the standard cubical cover skip copies because their row is covered, or its key known (`Proof/Repeat`); local labels fold onto those without copies, then C32 and C36; witnesses for KNNCover and for copies that come first |
| C125 | `mapper_labels`, the graph and the components as they are, two clusterings (`Spec/Relabel`) | local labels of the two runs correspond (`Proof/Relabel`), then C32 and C36 as for C70; exceptions by induction over the jobs |
| C126 | the model of C120, at every moment of a schedule instead of at the end (`Spec/Watched`) | weakest preconditions with an invariant for every moment, in two phases: results as before, then the new result (`Proof/Watched`, `WatchedTop`); steps that do not own an object leave it alone; witness of a moment between the two assignments |
| C127 | no new code: two runs with two clusterings, on one cover or on two (`Spec/Coarser`) | clusters of the first run lie in clusters of the second, so labels can be mapped (C32), and with them nodes, edges and chains (`Proof/Coarser`); hypercubes as for C94; single linkage by monotonicity of chains; witness for a clustering around the middle of the range |
| C128 | no new code: two lists of charts (`Spec/Listing`) | positions in a rearrangement, then the correspondence of runs of C72; parts of charts by C127 both ways; twins from C32 and the edges; witness for a clustering around the middle of the range |
| C129 | no new code: a clustering that is single linkage by specification (`Spec/Coarser`) | components are chains of clusters (C76), clusters are chains of close points; common charts from C114; for balls C127 and the witness of C76 |
| C130 | no new code: the jobs of C37 (`Model/Jobs`), at every moment of a schedule | the ownership invariant of C37 holds after every step; termination by induction over pending charts and accessibility of the jobs |
| C131 | no new code: graphs over cubical and ball covers | labels name their chart (C32); hypercubes with a common row are near (C113); centres of balls are a radius apart (C18), so only neighbouring centres can share a row |
| C132 | no new code: graphs over cubical and ball covers with `TrivialClustering` | the graph is the nerve (C75), so nodes are charts; one chart per cell or centre gives different levels; a highest node of a cycle would have two neighbours on one level; for the estimator, from the graph of regions of C84 |
| C133 | no new code: `Model/CubicalFloat` (C82) below `mapper_graph` | the boxes found are right up to the errors (C82); with the margins they stay less than two intervals wide, so that only neighbouring cells share a row; charts of one cell are equal, so that each cell has one; witness in double precision |
| C58, C68 | `plot_pyvis.py`, `plot_matplotlib.py`: pages and figures as data | list lemmas |
| C70–C72 | pairs of runs of `mapper_graph` and `mapper_connected_components` with the covers | simulation between runs: matching of local labels, renaming of nodes, transfer of reachability |
| C73, C74 | the search functions and `BallCover` over machine numbers | the invariants of C10, C12 and C18 with a margin |
| C75, C76 | `mapper_graph` and `mapper_connected_components` with trivial clustering and `BallCover` | from C18, C32, C34–C36 |
| C77 | `hierBuildRec`; the height of the built tree | induction on the fuel: each half has at most half the points; the model's fuel is the recursion limit; the searches with a limit (`Model/Limit`) agree with those without if it exceeds the height |
| C78 | quickselect, building, ball search, `BallCover`, for numbers with NaN | the invariants of C01, C13, C09, C17 in the form “not greater”, which hold for any irreflexive transitive `<` |
| C54–C57 | `app.py` configuration, storage, `fix_data` and `run_mapper` control flow; the page as a machine with asynchronous tasks | case analysis, invariants over action histories |

Properties marked "False of the code" in `properties.jsonl` get a theorem with a
concrete witness of the violation, and a theorem with suffix `_partial` for the
part that does hold.

## Where the code disagrees with its documentation or with what one would expect

All of these are theorems (names in parentheses).

* Flat vp-tree on empty data raises IndexError, the hierarchical one works
  (`C15_empty_flat_violation`). `leaf_capacity=0` does not terminate
  (`C16_zero_capacity_diverges`). Leaves of the flat kind can exceed
  `leaf_capacity` (`C62_leaf_capacity_violation`).
* Iterating over a `MaxHeap` inside an iteration of the same heap interferes
  (`C60_nested_iteration_violation`). `UnionFind` given a one-shot iterator is
  unusable (`C61_iterator_violation`).
* `KNNCover` with more than `neighbors` coinciding points can leave the point itself
  out of its chart (`C20_knn_duplicates_violation`).
* With tied distances `KNNCover` depends on random pivots, and so do the graph and its
  components (`C71_knn_violation`). The order of rows matters for `BallCover`,
  `ProximityCubicalCover` and `KNNCover` (`C72_ball_violation`,
  `C72_proximity_violation`, `C72_knn_violation`).
* With rounded distances a ball search can miss a point whose computed distance is in the
  ball (`C73_violation`). With an asymmetric metric `BallCover` can leave points uncovered
  (`C74_violation`).
* With a metric that takes infinite values `BallCover` leaves rows out of every chart, as
  `inf - inf` is NaN (`C78_infinite_violation`). With the hierarchical tree a row with NaN
  distances hides other rows (`C78_nan_violation`).
* With `BallCover`, points nearer to each other than the radius can be in different
  connected components (`C76_close_points_violation`).
* `StandardCubicalCover` leaves out hypercubes that contain points but no landmark
  (`C24_missing_hypercube_violation`). The default overlap is half of the grid
  cell, not half of the hypercube (`C26_half_of_hypercube_violation`). An
  `overlap_frac` of one or more is accepted (`C27_overlap_above_one`). A cubical cover
  refitted on empty data keeps answering for the old data
  (`C64_cubical_stale_violation`).
* The docstring of `mapper_labels` orders the labels of different points; they are
  not ordered (`C31_cross_point_order_violation`).
* `clone` shares nested estimators. With the default `failsafe=True` and several
  workers the jobs race on the wrapped clustering (`C37_race_violation`), and the user's
  estimator is modified by `fit` (`C44_violation`). A nested `MapperClustering` clones its parameters before it
  uses them, so that it does not pass this on (`C44_unshared_partial`); it is itself a shared object with an attribute
  `labels_` when it is wrapped.
* A cover with a repeated index in a chart yields self-loops
  (`C63_repeated_index_self_loop`); `X` and `y` of different lengths are not rejected
  (`C41_length_mismatch`).
* `set_params(fit=…)` overwrites the method (`C46_method_name_violation`). `repr` fails for
  an estimator with an added public attribute (`C69_other_attribute_violation`).
* Minkowski distances of order below one and cosine with zero vectors are accepted or
  raise ZeroDivisionError (`C48_below_one_violation`, `C49_zero_vector`).
* Text arrays raise TypeError instead of ValueError (`C43_text`).
* `plot_plotly_update(title=…)` without colours raises after a partial update
  (`C52_title_violation`, `C52_partial_update_violation`); colours without `agg`, or `agg`
  without colours, are ignored (`C52_colors_violation`, `C52_agg_violation`); without a title
  the colour menu is stale (`C52_menu_violation`). The active colour scale in the menu may differ
  from the figure (`C66_active_cmap_violation`).
* PyVis shows the marker size as size in the hover text
  (`C58_hover_size_violation`). matplotlib fails in three dimensions
  (`C68_three_dimensions_violation`).
* The scaling switches of the app have no effect, zeros are replaced by defaults
  (`C54_scaling_ignored`, `C54_zero_ignored`). A graph of earlier data can be drawn
  with new data (`C55_redraw_violation`, `C55_pending_violation`). A negative seed is
  accepted and makes drawing fail (`C79_seed_violation`).
* C80: the generators got from one `BallCover` (or `KNNCover`) share its tree: when two of them over
  different data are advanced in turn, one of them yields charts of the other's data and leaves rows
  uncovered (`C80_interleaved_violation`). `CubicalCover` makes a delegate for each and is not affected.
* C81: `fit` assigns the radius (number of neighbours, of intervals, bounds) before the step that can
  raise: afterwards searches of the old tree use them (`C81_ball_violation`, `C81_cubical_violation`).
* C82: with entries around 2^53 in double precision the computed centre of an interval is off by half the
  interval, and a row is in no chart (`C82_uncovered`). A row near the end of its interval is covered only by
  virtue of the overlap, which must exceed the rounding errors (`C82_cover_partial` says by how much).
* C83: a row with NaN distances becomes the nearest neighbour of every row in a flat tree (its key never
  compares, so it stays on top of the heap or evicts the others), and hides rows in a hierarchical one
  (`C83_nan_violation`). Infinitely distant rows are never returned, even when fewer than `k` are found, and
  since the difference of two infinities is NaN, rows near the query are missed (`C83_infinite_violation`).
* C85: in double precision `cosine(x, x)` is NaN for `x = [1, 1, 1]`, because the computed similarity exceeds
  one and the source takes the square root of `2 (1 - similarity)` without clipping; such rows are in no chart
  of a `BallCover` with this metric, whatever the radius. For `x = [1, 1]` it is `2.1e-8` instead of zero
  (`C85_cosine_violation`). The computation is that of IEEE 754; `fastmath` allows the compiler to deviate.
* C86: `_get_bounds` replaces the width of a column that spans at most `2^-52` by `n_intervals`, in absolute terms, so
  that data measured in large units (columns of the order of `1e-16`) falls into one interval
  (`C86_cubical_violation`).
* C87: `VPTree`, `BallCover` and `KNNCover` keep views of the rows of the array, and the tree keeps the radii
  computed from their contents at `fit`. After `X[i] = …` a search at the new contents of row `i` need not
  return `i` (`C87_violation`). The cubical covers work on a copy.
* C90: with `KNNCover`, and with the cubical covers for rows outside the bounding box, appending rows can
  separate rows that were in one component (`C90_knn_violation`, `C90_cubical_outside_violation`).
* C91: if the first node has no colour, `min` and `max` return NaN for the range of Plotly and Matplotlib
  (`C91_range_violation`); in pyvis `max(0.0, min(1.0, nan))` is 1, so that a node without a colour looks like
  the one with the greatest (`C91_pyvis_violation`).

* With `overlap_frac=None` a constant column added to the lens changes the charts of the
  cubical covers (`C93_default_overlap_violation`).
- C94: a larger radius, more neighbours, or (for the default `CubicalCover`, which is the proximity
  one) a larger overlap can split connected components: the new charts cover rows that used to be
  centres of their own. Only `StandardCubicalCover` is monotone. Nothing in the documentation says
  otherwise, but users tune these parameters expecting it.

- **C96** `compute_mapper_plot` of the Streamlit app is cached by nodes and edges of the graph, without the points at its nodes, and `compute_mapper_fig` by the positions of the plot. A page shown after one with other data and a graph with the same nodes and edges is coloured by the points of the other graph, or raises IndexError (`C96_colors_violation`, `C96_raises_violation`).
- **C97** `data_download_button` concatenates features and targets without `axis=1`, so the targets come in rows of their own (`C97_download_violation`).
- **C99**: in the web app, data uploaded as a file and data of an example share one slot. After a file was uploaded and an example loaded, selecting "CSV" and pressing "Load data" reports success but keeps the data of the example (`C99_csv_violation`).
- C101: `_quickselect` partitions into "less" and "not less", so that equal entries all stay on one side and each pass only removes the pivot: it is quadratic for equal entries. As all distances from a vantage point to copies of it are equal, building the trees, and so the ball and nearest-neighbour covers, takes time quadratic in the number of equal rows.
- C103: `MaxHeap.add` appends the item before it makes a comparison and `MaxHeap.pop` removes it before, so a comparison that raises leaves an item in the heap that the caller may believe was not added, or loses one, and the heap out of order.
- C105: `async_run_mapper` and `async_draw_mapper` store and show whatever arrives last. If Run Mapper is pressed twice with different settings and the first computation ends last, its graph replaces the newer one; and the drawing of an older graph can replace the figure of the stored one (`C105_run_violation`, `C105_shown_violation`, `C105_redraw_violation`).
- C106: the nodes of a graph with `KNNCover` have no bounded size in the lens, and with more copies of a row than `neighbors` some copies are in nodes and others in none (`C106_knn_violation`, `C106_knn_equal_violation`).
- C108: `UnionFind` is not safe for threads, even if only one of them calls `union`: path compression in another thread writes a representative it read before, so it can make two representatives each other's parents. The next `find` then never returns (`C108_search_violation`).

- C109: `warn_user` passes `stacklevel=2`, so that Python takes `cover.py:392` as the place of the
  warning and not the line of the user. With Python's own filters the warning about the overlap
  fraction is therefore shown once per process: a second cover with a too large overlap fraction
  gets none (`C109_second_violation`).
- C110: illegal values of some parameters are not reported. `BallCover(radius=0)` and `CubicalCover(overlap_frac=2)` give a graph without nodes (`C110_radius_violation`, `C110_overlap_violation`), and any string is accepted for `pivoting` (`C110_pivoting_violation`).
- C111: colours with more rows than the data are accepted, and the further rows ignored (`C111_extra_violation`, `C111_matplotlib_extra_violation`, `C111_pyvis_extra_violation`).
- C112: groups of rows that are far apart affect one another with cubical covers (`C112_cubical_violation`: a row far away joins the components of others) and with `KNNCover` if one of them has fewer than `neighbors` rows (`C112_knn_violation`).
- C113: with `BallCover` and `KNNCover` the number of edges can grow with the square of the number of rows, even if no two charts share more than one row (`C113_ball_violation`, `C113_knn_violation`).
- C114: connected data can have a disconnected graph. With `BallCover` rows linked by arbitrarily short steps, compared with the radius, can be in two components (`C114_ball_violation`), and the default algorithm of `CubicalCover` does the same with `overlap_frac=0.5` (`C114_proximity_violation`) and, with two columns, with smaller fractions (`C114_corner_violation`). The standard algorithm keeps such rows together (`C114_standard_partial`).
- C117: `set_params` sets nested parameters one at a time, in the order given. `set_params(clustering__clustering__n_clusters=5, clustering__clustering=c)` on a `FailSafeClustering` around another one changes the clustering that is replaced, and `c` keeps its own number of clusters; with the two parameters exchanged, `c` gets 5. (scikit-learn's own `set_params` passes all parameters of a nested object on together.) `C117_order_violation`.
- C118: if `create_mapper_figure` raises, `async_draw_mapper` does not stop its notification, which stays on the page for ever. If Run Mapper began the drawing, the exception is caught by the handler of Run Mapper, which says "Run Mapper failed" although the graph was stored. A file that `read_csv` refuses gives no message.
- C119: `MapperAlgorithm.fit` and `MapperClustering.fit` write the result and then `n_features_in_`. An interrupt between the two leaves the new result with the number of features of the old one.
- C120: `fit` of one estimator in two threads can leave the graph of one call with `n_features_in_` of the other. Two estimators that share a `FailSafeClustering` around an estimator race on that estimator, since `clone` does not copy nested objects: points can be missing from the graph, and no exception is raised.
- C122: adding a number to a column changes cubical charts even if every sum is exact, since the centres of the boxes are rounded more coarsely. Multiplying by powers of two does not.
- C123: with an entry exactly where two intervals meet, cubical covers of a lens and of the lens with its sign reversed differ: intervals are closed on the left only. The column `1, 0, 3` with three intervals gives three nodes, `-1, 0, -3` two.
- C124: with KNNCover a repeated row changes the graph, because its copies take the places of other neighbours: with two neighbours `0, 1, 4` gives two nodes, `0, 0, 1, 4` three.
- C126: learn.py:176-183 and 89-90 assign the result and then the number of features, so that a reader in another thread can see the graph of the new data with the number of columns of the old (`C126_features_violation`).
- C127: with a clustering that looks for a given number of clusters, merging intervals can split a connected component (`C127_violation`); this is not a fault of the code, but it limits what can be said about the parameters.
- C129: a ball cover can separate points that are much closer than its radius, so that Mapper with single linkage has more components than single linkage of the dataset (`C129_ball_violation`).
- C131: over one column, `KNNCover` and overlaps above one half can give triangles (`C131_knn_violation`, `C131_overlap_violation`).
- C132: a clustering that splits the middle interval gives a cycle over one column (`C132_clustering_violation`): the restriction to `TrivialClustering` is needed.
- C133: with `overlap_frac` exactly one half, rows at the ends of intervals can be put into two intervals that do not meet, because the middles of intervals are computed with rounding errors: in double precision the rows 38, 41.625 and 45.25 with `StandardCubicalCover(n_intervals=3, overlap_frac=0.5)` and the trivial clustering give a triangle (`C133_triangle_violation`).

## Trusted base

* Lean 4.33.0's kernel.
* The axioms `propext`, `Classical.choice`, `Quot.sound`, and no others
  (no `sorry`, `native_decide`, `bv_decide`, added axioms). Per theorem:

<!-- axioms -->
* `propext`: `C103_order`, `C108_endless_violation`, `C108_lost_union_violation`, `C108_search_violation`, `C125_renumbered`, `C15_empty_flat_violation`, `C15_empty_hier_partial`, `C16_zero_capacity_diverges`, `C30_trivial_cover`, `C53_negative_seed`, `C53_networkx`, `C53_unknown_engine`, `C57_raises`, `C60_nested_iteration_violation`, `C62_leaf_capacity_violation`, `C64_ball_history`, `C64_knn_history`, `C80_parameters`, `C81_ball_violation`, `C87_knn_violation`, `C87_violation`, `C88_first`.
* `Quot.sound`, `propext`: `C101_result`, `C102_result`, `C104_records`, `C104_same`, `C104_silent`, `C106_knn_equal_violation`, `C107_depth_violation`, `C109_results`, `C111_matplotlib_extra_violation`, `C111_matplotlib_rows_partial`, `C111_matplotlib_scale_partial`, `C111_plot_kind_partial`, `C111_pyvis_extra_violation`, `C111_pyvis_rows_partial`, `C111_pyvis_scale_partial`, `C111_update_kind_partial`, `C112_knn_violation`, `C114_knn_violation`, `C121_ball`, `C121_ball_search`, `C121_graph`, `C121_knn`, `C121_knn_search`, `C121_precomputed`, `C125_failsafe`, `C128_parts_violation`, `C131_knn_violation`, `C20_knn_duplicates_violation`, `C31_cross_point_order_violation`, `C38_failsafe`, `C39_aggregate_graph`, `C52_agg_violation`, `C52_colors_violation`, `C52_frame`, `C52_update_partial`, `C53_other_dimension`, `C53_positions`, `C57_excluded_unknown`, `C58_failure`, `C63_repeated_index_self_loop`, `C64_cubical_history_partial`, `C68_matplotlib_partial`, `C68_three_dimensions_violation`, `C71_knn_violation`, `C76_close_points_violation`, `C78_infinite_violation`, `C78_nan_violation`, `C80_interleaved_violation`, `C80_lazy`, `C81_ball_partial`, `C81_ball_recovers`, `C81_cubical_recovers`, `C81_knn_partial`, `C81_knn_recovers`, `C81_wrapper_unknown`, `C83_finite_cover`, `C83_finite_tree`, `C83_infinite_violation`, `C83_nan_violation`, `C85_any_order`, `C85_symmetric`, `C88_result`, `C90_knn_violation`, `C94_ball_violation`, `C94_knn_violation`, `C96_first`, `C97_download_partial`, `C97_download_violation`, `C97_within`.
* `Classical.choice`, `Quot.sound`, `propext`: `C01_quickselect_order_statistic`, `C02_quickselect_moves_rows`, `C03_heap_is_priority_queue`, `C04_heap_drain_sorts`, `C05_unionfind_connected`, `C06_find_pure`, `C07_union_result`, `C08_unionfind_depth`, `C09_flat_ball_exact`, `C100_ball`, `C100_ball_needed`, `C100_cubical`, `C100_knn`, `C100_radius`, `C101_build`, `C101_build_equal`, `C101_equal`, `C101_select`, `C102_add`, `C102_history`, `C102_pop`, `C103_add`, `C103_history`, `C103_pop`, `C105_redraw_partial`, `C105_redraw_violation`, `C105_run_partial`, `C105_run_violation`, `C105_shown_partial`, `C105_shown_violation`, `C106_ball_equal_partial`, `C106_ball_partial`, `C106_cubical_equal_partial`, `C106_cubical_partial`, `C106_knn_violation`, `C107_interrupted`, `C107_steps`, `C108_finds_partial`, `C109_default_overlap`, `C109_error`, `C109_once`, `C109_same`, `C109_second_violation`, `C109_shown_partial`, `C109_untouched`, `C10_hier_ball_exact`, `C110_algorithm_partial`, `C110_cubical_partial`, `C110_kind_partial`, `C110_metric_partial`, `C110_overlap_violation`, `C110_pivoting_violation`, `C110_radius_violation`, `C111_empty_partial`, `C111_extra_violation`, `C111_plotly_rows_partial`, `C111_scale_partial`, `C112_ball_partial`, `C112_cubical_violation`, `C112_knn_partial`, `C113_ball_partial`, `C113_ball_violation`, `C113_counts`, `C113_cubical`, `C113_cubical_degree`, `C113_half`, `C113_knn_partial`, `C113_knn_violation`, `C114_ball_violation`, `C114_corner_violation`, `C114_labels_partial`, `C114_line_partial`, `C114_proximity_violation`, `C114_standard_charts_partial`, `C114_standard_partial`, `C115_controls`, `C115_data`, `C115_graph`, `C115_layout`, `C115_message`, `C116_file`, `C116_lossless`, `C116_page`, `C117_copy`, `C117_order_partial`, `C117_order_violation`, `C118_click_redraw`, `C118_click_run`, `C118_draw`, `C118_load`, `C118_ongoing`, `C118_page`, `C118_run`, `C118_spinners_partial`, `C118_stuck`, `C118_stuck_violation`, `C118_upload`, `C118_upload_silent`, `C119_end`, `C119_features_labels_violation`, `C119_features_violation`, `C119_graph_partial`, `C119_history_graph`, `C119_history_labels`, `C119_history_params`, `C119_labels_partial`, `C119_next_graph`, `C119_next_labels`, `C119_others`, `C119_params`, `C119_whole`, `C11_flat_knn_exact`, `C120_alone_partial`, `C120_ends`, `C120_graph_partial`, `C120_labels_partial`, `C120_no_deadlock`, `C120_others`, `C120_params`, `C120_same_violation`, `C120_shared_violation`, `C121_float`, `C121_scaled`, `C122_charts`, `C122_graph`, `C122_search`, `C122_shift_changes`, `C123_cubical_partial`, `C123_cubical_violation`, `C123_distance`, `C123_metric`, `C124_ball`, `C124_cubical`, `C124_graph`, `C124_knn_violation`, `C124_order_violation`, `C124_trivial`, `C125_graph`, `C126_features_violation`, `C126_graph_partial`, `C126_labels_partial`, `C126_once`, `C127_graph`, `C127_same_cover`, `C127_standard_linkage`, `C127_trivial`, `C127_violation`, `C128_order`, `C128_parts`, `C128_twins`, `C129_ball_violation`, `C129_exact`, `C129_never_joins`, `C129_standard_partial`, `C12_hier_knn_exact`, `C130_each_job`, `C130_ends`, `C130_fails`, `C130_objects_kept`, `C130_reported`, `C130_stops`, `C130_succeeds`, `C131_ball_line`, `C131_charts`, `C131_cubical`, `C131_cubical_line`, `C131_levels`, `C131_overlap_violation`, `C132_ball`, `C132_clustering_violation`, `C132_cubical`, `C132_estimator`, `C132_estimator_ball`, `C132_paths`, `C133_cubical_partial`, `C133_line_partial`, `C133_paths_partial`, `C133_triangle_violation`, `C13_flat_build`, `C13_hier_build`, `C14_configuration_independent`, `C16_triangle_needed`, `C17_ball_search`, `C18_ball_cover`, `C19_knn_search`, `C20_knn_cover_partial`, `C21_search_boxes`, `C21_search_hypercube`, `C22_cubical_cover`, `C23_overlap`, `C24_missing_hypercube_violation`, `C24_standard_cells_partial`, `C25_proximity_among_standard`, `C26_default_accepted`, `C26_default_range`, `C26_half_of_cell`, `C26_half_of_hypercube_violation`, `C27_overlap_above_one`, `C27_validation`, `C28_delegates`, `C29_proximity_net`, `C29_proximity_net_covers`, `C31_labels_ascending`, `C32_labels_faithful`, `C33_noise`, `C34_graph_nodes`, `C35_graph_edges`, `C36_connected_components`, `C37_all_schedules_partial`, `C37_one_worker`, `C37_progress`, `C37_race_violation`, `C39_aggregate_mapper_graph`, `C40_nerve`, `C41_length_mismatch`, `C42_fit_transform`, `C42_graph`, `C42_history`, `C42_history_labels`, `C42_labels`, `C43_exactly`, `C43_only_finite`, `C43_points`, `C43_rejects`, `C43_text`, `C44_objects_partial`, `C44_unshared_partial`, `C44_violation`, `C45_clone`, `C46_assign`, `C46_get_params`, `C46_method_name_violation`, `C46_nested_in_plain`, `C46_private`, `C46_round_trip`, `C46_sequence`, `C46_unknown_partial`, `C47_chebyshev`, `C47_euclidean`, `C47_manhattan`, `C47_max_unique`, `C48_below_one_violation`, `C48_metric`, `C48_negative_violation`, `C48_special_orders`, `C48_zero`, `C49_pseudometric`, `C49_scaling`, `C49_value`, `C49_zero_vector`, `C50_arguments`, `C50_callable`, `C50_named`, `C50_supported`, `C50_unknown`, `C51_edges`, `C51_mapper_graph`, `C51_nodes`, `C51_parameters`, `C51_succeeds`, `C52_menu_violation`, `C52_partial_update_violation`, `C52_title_violation`, `C54_scaling_ignored`, `C54_settings_partial`, `C54_zero_ignored`, `C55_changes`, `C55_fresh_partial`, `C55_graph`, `C55_labels`, `C55_pending_violation`, `C55_redraw_violation`, `C55_refused`, `C55_shown`, `C56_complete`, `C56_fix_data`, `C56_idempotent`, `C57_none_iff`, `C57_result`, `C58_colors`, `C58_equal_sizes`, `C58_hover_size_violation`, `C58_page`, `C58_sizes`, `C59_partition`, `C60_iteration_complete_partial`, `C61_iterator_violation`, `C62_flat_leaf_size_partial`, `C62_hier_leaf_size_partial`, `C64_cubical_stale_violation`, `C65_cosine_search`, `C65_named_search`, `C66_active_cmap_violation`, `C66_cmap_menu`, `C66_cmap_menu_active`, `C66_color_menu`, `C66_color_menu_active`, `C66_slider`, `C67_update_history`, `C69_attribute_error`, `C69_clone`, `C69_contents`, `C69_default`, `C69_other_attribute_violation`, `C69_succeeds`, `C70_ball`, `C70_ball_graph`, `C70_cubical`, `C70_cubical_graph`, `C70_graph`, `C71_knn_graph_partial`, `C71_knn_partial`, `C72_ball_partial`, `C72_ball_violation`, `C72_knn_violation`, `C72_proximity_violation`, `C72_standard_partial`, `C72_trivial`, `C73_ball`, `C73_ball_true`, `C73_knn`, `C73_knn_true`, `C73_violation`, `C74_charts`, `C74_cover`, `C74_violation`, `C75_ball_graph`, `C75_nerve`, `C76_ball_steps`, `C76_chains`, `C76_cover_chains`, `C77_depth`, `C77_recursion_limit`, `C77_search`, `C78_apply`, `C78_ball_search`, `C78_cover`, `C78_hier_build`, `C78_quickselect`, `C79_color_menu`, `C79_colors`, `C79_controls`, `C79_layout`, `C79_run`, `C79_seed_violation`, `C79_succeeds`, `C80_ball_partial`, `C80_cubical`, `C80_cubical_search`, `C80_knn_partial`, `C80_same_data_partial`, `C81_cubical_partial`, `C81_cubical_violation`, `C81_wrapper`, `C82_cover_partial`, `C82_exact`, `C82_search`, `C82_uncovered`, `C83_apply`, `C83_knn_exact_partial`, `C83_knn_search`, `C84_ball`, `C84_ball_components`, `C84_cubical`, `C84_cubical_components`, `C84_knn`, `C84_knn_components`, `C85_accuracy`, `C85_cosine_accuracy`, `C85_cosine_violation`, `C85_cover_partial`, `C85_exact`, `C85_search_chebyshev`, `C85_search_euclidean`, `C85_search_manhattan`, `C85_self`, `C86_ball`, `C86_ball_scaled`, `C86_cubical_partial`, `C86_cubical_violation`, `C86_graph`, `C86_knn_partial`, `C87_ball_moved`, `C87_ball_partial`, `C87_ball_rigid`, `C87_knn_partial`, `C87_tree`, `C87_tree_knn`, `C88_bad_row`, `C88_build`, `C88_cosine`, `C88_cover`, `C88_knn_bad_row`, `C88_knn_raises`, `C88_raises`, `C88_search`, `C89_ball_clusters`, `C89_graph`, `C89_labels`, `C90_ball`, `C90_cubical_outside_violation`, `C90_cubical_proximity`, `C90_cubical_standard`, `C91_agrees`, `C91_colors`, `C91_first_violation`, `C91_pyvis`, `C91_pyvis_none`, `C91_pyvis_violation`, `C91_range_partial`, `C91_range_violation`, `C92_ball`, `C92_ball_labels`, `C92_construct`, `C92_cubical`, `C92_cubical_labels`, `C92_defaults`, `C92_knn`, `C92_knn_labels`, `C92_nothing`, `C92_nothing_labels`, `C92_one_interval`, `C92_parameters`, `C93_ball`, `C93_cosine`, `C93_cubical`, `C93_default_overlap_violation`, `C93_distance`, `C93_graph`, `C93_knn`, `C94_graph`, `C94_proximity_violation`, `C94_standard_partial`, `C95_ball_one`, `C95_ball_own`, `C95_cubical_one`, `C95_knn_one`, `C95_knn_own`, `C95_one_chart`, `C95_own_charts`, `C95_trivial_cover`, `C96_colors_violation`, `C96_figure`, `C96_graph`, `C96_page_partial`, `C96_raises_violation`, `C97_beyond`, `C97_limits`, `C97_mode`, `C97_mode_missing`, `C98_graph`, `C98_labels`, `C98_params`, `C98_radius`, `C99_csv_partial`, `C99_csv_violation`, `C99_last`, `C99_load`, `C99_stores`.
<!-- end axioms -->

(written by `tools/gen_axioms.py`)

* The transcription of the Python into the Lean model, checked by reading.

### Modelled code

| file | model | not modelled |
|------|-------|--------------|
| `utils/quickselect.py` | `Model/Quickselect`; its comparisons: `Model/Compare` | Numba compilation, fixed-width integers |
| `utils/heap.py` | `Model/Heap`; comparisons that may raise: `Model/HeapAny` | |
| `utils/unionfind.py` | `Model/UnionFind`, one access at a time in `Model/UnionFindSteps` | |
| `utils/vptree_flat/*`, `utils/vptree_hier/*` | `Model/VPArray`, `Model/VPFlat`, `Model/VPHier`; infinite and NaN distances in nearest-neighbour search: `Model/KnnInf`; searches under a recursion limit: `Model/Limit` | |
| `utils/vptree.py` | `Model/VPTree` | |
| `utils/metrics.py`, `utils/_metrics.py` | `Model/Metrics` (exact), `Model/MetricsFloat` (rounding, NaN, order of additions) | contraction into fused operations, undefined NaN results under `fastmath` |
| `core.py` | `Model/Core`, `Model/Learn`, `Model/Jobs`; log records: `Model/Logging` | which of several exceptions `joblib` reports (C130 allows any of them) |
| `cover.py` | `Model/Cover`, `Model/Overlap`; attributes, failing `fit` and generators: `Model/CoverState`; the cubical covers with rounded arithmetic: `Model/CubicalFloat`, `Model/Binary` | dtypes other than `float64`, overflow and underflow |
| calls of the metric by trees and covers, and their exceptions | `Model/Calls` | exceptions inside the clustering |
| rows shared between arrays and trees | `Model/InPlace` | |
| `learn.py` | `Model/Learn`, in single steps: `Model/Interrupt`, in several threads: `Model/Threads`, with the covers of `cover.py`: `Model/Library` | |
| constructors of `cover.py`, `core.py`, `learn.py` | `Model/Construct` | |
| `_common.py` | `Model/Objects`, `Model/Repr`, `Model/Validate`; `warn_user`: `Model/Warnings` | `deprecated`, `profile` (not used by the library) |
| `protocols.py`, `__init__.py`, `_run_app.py` | types only | |
| `plot.py`, `plot_backends/plot_plotly.py` | `Model/Plot`; colours that are NaN: `Model/PlotNan` | fixed styling, number formats, Plotly itself |
| `plot_backends/plot_pyvis.py`, `plot_matplotlib.py`, `common.py` | `Model/PlotBackends` | fixed styling, number formats, HTML, drawing |
| `app.py` | `Model/App`, `Model/AppFigure`, `Model/AppNotes`, `Model/Frame` | page layout, logging, the text of exceptions |
| `app/streamlit_app.py` | `Model/Streamlit`: `main`, `load_data`, `_fix_data`, the limits, lens, `compute_mapper`, `_encode_graph`, `compute_mapper_plot`, `compute_mapper_fig`, `mode`, statistics, the downloaded table; `Model/Download`: the JSON of the downloaded graph | layout and texts of the page, `_get_data_summary` and its sample, `_edge_colors` (not used), compression and names of files. The module as committed only calls `redirect`; `main` is modelled as it would run |

Third-party libraries (scikit-learn, joblib, networkx layouts, igraph, plotly, pyvis,
matplotlib, pandas, NiceGUI) appear as interfaces with the behaviour stated in the
comments of the model. Rounding of distances is covered by C73 and C74, rounding in the
cubical covers by C82, infinite and NaN distances by C78 and C83; elsewhere numbers are
exact.
