{"id": "C01", "title": "quickselect places the k-th order statistic", "statement": "For every array of totally ordered values and every start <= k < end <= len, quickselect(data,start,end,k) terminates without an index error, and afterwards every element of [start,k) is <= data[k] and every element of [k,end) is >= data[k]; data[k] is thus the (k-start)-th smallest element of the range.", "quantifier": "all arrays (any length, any repeated values), all start<=k<end<=len", "why_tests_cant": "Termination of the 'while higher != k+1' loop and the order postcondition depend on duplicates and on the pivot sequence; tests sample a handful of arrays.", "anchors": ["src/tdamapper/utils/quickselect.py:_quickselect", "src/tdamapper/utils/quickselect.py:_partition"]}
{"id": "C02", "title": "quickselect moves rows, never tears or loses them", "statement": "quickselect only permutes positions inside [start,end), applies one and the same permutation to data and to both optional companion arrays, leaves everything outside the range untouched, and is a no-op when k is outside [start,end).", "quantifier": "all arrays, companion arrays present or absent, all start,end,k with end<=len", "why_tests_cant": "A torn row (distance swapped, index not) shows up only for particular pivot sequences.", "anchors": ["src/tdamapper/utils/quickselect.py:_swap_all", "src/tdamapper/utils/quickselect.py:_quickselect", "src/tdamapper/utils/quickselect.py:swap_all"]}
{"id": "C03", "title": "MaxHeap is a priority queue", "statement": "For every sequence of add/pop/top/len calls on a fresh MaxHeap, the heap behaves like a multiset of (key,value) pairs: len is the number of stored pairs, top and pop return a stored pair of maximal key (None when empty), pop removes exactly that pair, iteration yields exactly the stored pairs.", "quantifier": "all operation sequences of any length over any linearly ordered keys", "why_tests_cant": "Heap-order bugs appear at particular sizes and key patterns.", "anchors": ["src/tdamapper/utils/heap.py:MaxHeap"]}
{"id": "C04", "title": "Draining a MaxHeap sorts", "statement": "Adding any list of pairs to a fresh MaxHeap and popping until None yields exactly those pairs, with keys in non-increasing order, in exactly as many pops as adds.", "quantifier": "all finite lists of key/value pairs", "why_tests_cant": "Every size and duplicate pattern matters.", "anchors": ["src/tdamapper/utils/heap.py:MaxHeap.add", "src/tdamapper/utils/heap.py:MaxHeap.pop"]}
{"id": "C05", "title": "UnionFind computes the generated equivalence", "statement": "For every sequence of union and find calls on elements given at construction, find(x)==find(y) holds exactly when x and y are connected by the equivalence generated by the pairs united so far.", "quantifier": "all element sets, all operation histories of any length", "why_tests_cant": "Correctness depends on the whole history of unions interleaved with path compression.", "anchors": ["src/tdamapper/utils/unionfind.py:UnionFind"]}
{"id": "C06", "title": "UnionFind.find terminates, answers with a class member, and is observationally pure", "statement": "In every reachable state find(x) terminates for every known x and returns a member of x's class that is its own representative; performing it (path compression) changes no later find answer.", "quantifier": "all reachable states, all known elements", "why_tests_cant": "Termination needs acyclicity of the parent table in every reachable state.", "anchors": ["src/tdamapper/utils/unionfind.py:UnionFind.find"]}
{"id": "C07", "title": "UnionFind.union return value and unknown elements", "statement": "union(x,y) returns the element that find(x) and find(y) both answer afterwards; find/union on an element not given at construction raises KeyError and no answer about known elements changes.", "quantifier": "all reachable states, all elements known or not", "why_tests_cant": "Quantifies over all histories.", "anchors": ["src/tdamapper/utils/unionfind.py:UnionFind.union", "src/tdamapper/utils/unionfind.py:UnionFind.find"]}
{"id": "C08", "title": "UnionFind stays flat (union by size)", "statement": "In every reachable state the number of parent steps from any element to its representative is at most log2 of the size of its class: 2^steps <= class size.", "quantifier": "all histories of union/find over any number of elements", "why_tests_cant": "An asymptotic bound over all histories cannot be tested.", "anchors": ["src/tdamapper/utils/unionfind.py:UnionFind.union"]}
{"id": "C09", "title": "Flat VPTree ball_search is exact", "statement": "For every non-empty dataset, every pseudo-metric, every leaf_capacity>=1, leaf_radius, pivoting strategy and sequence of random draws, ball_search(q,eps,inclusive) on a flat tree terminates without error and returns, up to order, exactly the dataset entries x with d(q,x)<=eps (or <eps when not inclusive), each stored copy once.", "quantifier": "all datasets, pseudo-metrics, parameters, random draws, query points, radii", "why_tests_cant": "Pruning errors need adversarial geometry, ties and duplicates.", "anchors": ["src/tdamapper/utils/vptree_flat/ball_search.py:BallSearch", "src/tdamapper/utils/vptree_flat/builder.py:Builder", "src/tdamapper/utils/vptree.py:VPTree"]}
{"id": "C10", "title": "Hierarchical VPTree ball_search is exact", "statement": "Same as C09 for kind='hierarchical', also for the empty dataset.", "quantifier": "all datasets (also empty), pseudo-metrics, parameters, random draws, query points, radii", "why_tests_cant": "Pruning errors need adversarial geometry, ties and duplicates.", "anchors": ["src/tdamapper/utils/vptree_hier/ball_search.py:BallSearch", "src/tdamapper/utils/vptree_hier/builder.py:Builder", "src/tdamapper/utils/vptree.py:VPTree"]}
{"id": "C11", "title": "Flat VPTree knn_search is exact", "statement": "For every non-empty dataset, pseudo-metric, leaf_capacity>=1, leaf_radius, pivoting, random draws, query q and k>=0, knn_search(q,k) on a flat tree terminates without error and returns min(k,n) stored entries such that no entry left out is closer to q than a returned one.", "quantifier": "all datasets, pseudo-metrics, parameters, random draws, query points, k", "why_tests_cant": "The pruning threshold interacts with the heap state and visiting order.", "anchors": ["src/tdamapper/utils/vptree_flat/knn_search.py:KnnSearch", "src/tdamapper/utils/heap.py:MaxHeap"]}
{"id": "C12", "title": "Hierarchical VPTree knn_search is exact", "statement": "Same as C11 for kind='hierarchical', also for the empty dataset.", "quantifier": "all datasets, pseudo-metrics, parameters, random draws, query points, k", "why_tests_cant": "The pruning threshold interacts with the heap state and visiting order.", "anchors": ["src/tdamapper/utils/vptree_hier/knn_search.py:KnnSearch", "src/tdamapper/utils/heap.py:MaxHeap"]}
{"id": "C13", "title": "VPTree construction terminates, loses nothing and has the vantage-point property", "statement": "For every dataset, leaf_capacity>=1, leaf_radius, pivoting, random draws and any distance function, constructing either kind of tree terminates without an index error and stores each dataset entry exactly once; below each internal node the near half is within, and the far half at or beyond, the stored radius of the vantage point.", "quantifier": "all datasets incl. empty, all parameters, any distance function", "why_tests_cant": "Build termination and array bookkeeping must hold for every size and split.", "anchors": ["src/tdamapper/utils/vptree_flat/builder.py:Builder.build", "src/tdamapper/utils/vptree_hier/builder.py:Builder.build"]}
{"id": "C14", "title": "Tree kind, pivoting and leaf parameters never change answers", "statement": "For a pseudo-metric and a non-empty dataset, any two VPTrees on the same data (any kind, leaf_capacity>=1, leaf_radius, pivoting, random draws) return the same ball_search result up to order and knn_search results with the same sorted list of distances.", "quantifier": "all pairs of configurations, datasets, queries", "why_tests_cant": "A relational property over pairs of configurations.", "anchors": ["src/tdamapper/utils/vptree.py:VPTree"]}
{"id": "C15", "title": "Searching an empty VPTree", "statement": "A search on a tree built over an empty dataset returns an empty list for both kinds. (False of the code: the flat kind raises IndexError; true for the hierarchical kind.)", "quantifier": "all queries on empty trees, both kinds", "why_tests_cant": "The discrepancy is a boundary case tests skipped (tests only build the empty tree).", "anchors": ["src/tdamapper/utils/vptree_flat/ball_search.py:BallSearch._search_iter", "src/tdamapper/utils/vptree_flat/knn_search.py:KnnSearch._search_iter"]}
{"id": "C16", "title": "The documented preconditions of VPTree are necessary", "statement": "leaf_capacity must be positive (with leaf_capacity=0 building a flat tree can loop forever) and the distance must satisfy the triangle inequality (otherwise ball_search can miss a point inside the ball).", "quantifier": "existence of violating inputs; loop shown to diverge for every number of steps", "why_tests_cant": "Divergence is not observable by a terminating test.", "anchors": ["src/tdamapper/utils/vptree_flat/builder.py:Builder._build_iter", "src/tdamapper/utils/vptree.py:VPTree"]}
{"id": "C17", "title": "BallCover.search returns exactly the open ball", "statement": "After BallCover.fit(X) on non-empty X with leaf_capacity>=1, search(x) returns, without repetition, exactly the indices i with d(x,X[i])<radius, for either kind, any leaf_radius, pivoting and random draws.", "quantifier": "all datasets, pseudo-metrics, radii, parameters, query points", "why_tests_cant": "Inherits the universal quantification of C09/C10.", "anchors": ["src/tdamapper/cover.py:BallCover.search", "src/tdamapper/cover.py:BallCover.fit"]}
{"id": "C18", "title": "BallCover.apply is an r-net cover", "statement": "For radius>0, BallCover.apply(X) yields non-empty repetition-free charts with valid indices, each equal to the open ball of a dataset point; every index is in at least one chart; the chosen centres are pairwise at distance >= radius.", "quantifier": "all datasets incl. empty, pseudo-metrics, positive radii, parameters", "why_tests_cant": "Coverage must hold for every dataset.", "anchors": ["src/tdamapper/cover.py:BallCover.apply", "src/tdamapper/core.py:proximity_net"]}
{"id": "C19", "title": "KNNCover.search returns the k nearest indices", "statement": "After KNNCover.fit(X) on non-empty X, search(x) returns min(neighbors,n) distinct valid indices such that no other index is strictly closer to x.", "quantifier": "all datasets, pseudo-metrics, neighbors>=1, parameters, queries", "why_tests_cant": "Inherits C11/C12.", "anchors": ["src/tdamapper/cover.py:KNNCover.search"]}
{"id": "C20", "title": "KNNCover.apply covers every point", "statement": "Every index of X is in at least one chart of KNNCover.apply(X). (False of the code when more than `neighbors` points coincide; proved when at most `neighbors` points are at distance 0 from each point.)", "quantifier": "all datasets, pseudo-metrics, neighbors", "why_tests_cant": "Fails only on datasets with repeated points.", "anchors": ["src/tdamapper/cover.py:KNNCover.apply", "src/tdamapper/core.py:proximity_net"]}
{"id": "C21", "title": "Cubical covers use the documented open boxes", "statement": "After fit with n_intervals=n>=1 and 0<overlap_frac=p<1, search(x) returns exactly the indices of the points lying, in every coordinate, in the open interval (a - delta/2, b + delta/2), where [a,b) is the grid cell of x (the range split in n equal cells, last cell closed), delta=p*w and w=(b-a)/(1-p); coordinates on which the dataset is constant impose no constraint on dataset points.", "quantifier": "all non-empty datasets of any dimension, all n>=1, 0<p<1, all query points, all tree parameters", "why_tests_cant": "The unit test checks one integer grid in dimension 1.", "anchors": ["src/tdamapper/cover.py:BaseCubicalCover.search", "src/tdamapper/cover.py:BaseCubicalCover._phi", "src/tdamapper/cover.py:BaseCubicalCover.fit"]}
{"id": "C22", "title": "Cubical covers cover every point", "statement": "For n_intervals>=1 and 0<overlap_frac<1, StandardCubicalCover, ProximityCubicalCover and CubicalCover (either algorithm) yield non-empty repetition-free charts of valid indices and every point is in at least one chart.", "quantifier": "all datasets incl. empty, dimensions, n, p, tree parameters", "why_tests_cant": "Coverage must hold for every dataset.", "anchors": ["src/tdamapper/cover.py:StandardCubicalCover.apply", "src/tdamapper/cover.py:ProximityCubicalCover.apply", "src/tdamapper/cover.py:CubicalCover.apply"]}
{"id": "C23", "title": "overlap_frac has its documented geometric meaning", "statement": "In each dimension the open intervals of adjacent cells overlap by exactly the fraction overlap_frac of their common width, and for overlap_frac<=0.5 intervals of non-adjacent cells are disjoint, so a point is in at most two intervals per dimension.", "quantifier": "all n>=1, all 0<p<1 (disjointness for p<=1/2), all datasets and cells", "why_tests_cant": "A geometric identity over a continuum of parameters.", "anchors": ["src/tdamapper/cover.py:BaseCubicalCover.fit"]}
{"id": "C24", "title": "StandardCubicalCover yields all hypercubes intersecting the dataset", "statement": "StandardCubicalCover.apply yields one chart for each hypercube of the grid that intersects the dataset. (False of the code: hypercubes met only in their overlap margin are omitted; proved: exactly one chart per grid cell containing a dataset point.)", "quantifier": "all datasets, n, p", "why_tests_cant": "Tests use symmetric datasets that populate all cells.", "anchors": ["src/tdamapper/cover.py:StandardCubicalCover.apply", "src/tdamapper/cover.py:StandardCubicalCover._landmarks"]}
{"id": "C25", "title": "Proximity cubical charts are among the standard ones", "statement": "Every chart of ProximityCubicalCover.apply(X) is, up to order, a chart of StandardCubicalCover.apply(X) with the same parameters; no grid cell gives two charts, so the proximity cover has at most as many charts.", "quantifier": "all datasets, n>=1, 0<p<1", "why_tests_cant": "Relational over two algorithms.", "anchors": ["src/tdamapper/cover.py:ProximityCubicalCover", "src/tdamapper/cover.py:StandardCubicalCover"]}
{"id": "C26", "title": "Default overlap_frac", "statement": "When overlap_frac is None and dim>=1 the value used lies in (0,1/3] (so no warning or error), and it makes the part of each grid cell overlapped by neighbouring hypercubes exactly half of the cell volume. (The docstring's 'half of each hypercube' is false when hypercube means the enlarged open box.)", "quantifier": "all dimensions", "why_tests_cant": "Real-valued identity for every dimension.", "anchors": ["src/tdamapper/cover.py:BaseCubicalCover._get_overlap_frac", "src/tdamapper/cover.py:BaseCubicalCover.fit"]}
{"id": "C27", "title": "Cubical parameter validation", "statement": "On non-empty data fit raises ValueError exactly when overlap_frac<=0; for 0<p<=0.5 it succeeds silently, for p>0.5 it warns; p=1 raises ZeroDivisionError; for p>1 the radius is negative and every search is empty, so nothing is covered.", "quantifier": "all datasets and overlap_frac values", "why_tests_cant": "A continuum of parameter values.", "anchors": ["src/tdamapper/cover.py:BaseCubicalCover.fit"]}
{"id": "C28", "title": "CubicalCover delegates", "statement": "CubicalCover(algorithm='proximity'|'standard').apply/search give the same result as the delegate class with the same parameters; any other algorithm string raises ValueError, on both fit and apply.", "quantifier": "all algorithm strings, parameters, datasets", "why_tests_cant": "All strings.", "anchors": ["src/tdamapper/cover.py:CubicalCover"]}
{"id": "C29", "title": "proximity_net covers for any reflexive search", "statement": "For any search object, proximity_net yields, in dataset order, exactly the non-empty results search(X[i]) of the indices i not contained in an earlier result; if search(X[i]) always contains i then every index is covered and no chart is wholly contained in the union of the earlier ones.", "quantifier": "all search functions, all datasets", "why_tests_cant": "User-supplied search objects.", "anchors": ["src/tdamapper/core.py:proximity_net"]}
{"id": "C30", "title": "TrivialCover", "statement": "TrivialCover.apply yields exactly one chart listing every index once in order, or nothing for an empty dataset.", "quantifier": "all datasets", "why_tests_cant": "All sizes.", "anchors": ["src/tdamapper/core.py:TrivialCover.apply"]}
{"id": "C31", "title": "mapper_labels are strictly ascending per point", "statement": "For every cover yielding repetition-free charts of valid indices and every clustering, mapper_labels returns one list per point of X, strictly ascending. (The docstring sentence 'if i<j the labels at position i are strictly less than those at position j' is false across points.)", "quantifier": "all datasets, covers, clusterings", "why_tests_cant": "All covers and label assignments incl. non-contiguous and noise labels.", "anchors": ["src/tdamapper/core.py:mapper_labels"]}
{"id": "C32", "title": "mapper_labels encode (chart, cluster) faithfully", "statement": "Two label occurrences are equal exactly when they come from the same chart and the same local cluster label: label l occurs at point i exactly when some chart c contains i with non-negative local label and l is that chart's offset plus the local label; label ranges of distinct charts are disjoint.", "quantifier": "all datasets, covers, clusterings", "why_tests_cant": "Offset arithmetic must avoid collisions for every label assignment incl. gaps and all-noise charts.", "anchors": ["src/tdamapper/core.py:mapper_labels"]}
{"id": "C33", "title": "Noise and uncovered points", "statement": "A point has an empty label list exactly when in every chart containing it its local label is negative (in particular if no chart contains it).", "quantifier": "all datasets, covers, clusterings", "why_tests_cant": "All label assignments.", "anchors": ["src/tdamapper/core.py:mapper_labels", "src/tdamapper/core.py:mapper_connected_components"]}
{"id": "C34", "title": "mapper_graph nodes", "statement": "The nodes of mapper_graph are exactly the labels occurring in mapper_labels; node attribute ids lists, ascending and without repetition, exactly the points carrying the label; size equals len(ids) and is >=1.", "quantifier": "all datasets, covers (repetition-free charts), clusterings", "why_tests_cant": "All inputs.", "anchors": ["src/tdamapper/core.py:mapper_graph"]}
{"id": "C35", "title": "mapper_graph edges", "statement": "Distinct nodes u,v are adjacent exactly when some point belongs to both (their ids intersect); adjacency is symmetric and there are no self-loops; no edge leads to a missing node.", "quantifier": "all datasets, covers (repetition-free charts), clusterings", "why_tests_cant": "All inputs.", "anchors": ["src/tdamapper/core.py:mapper_graph"]}
{"id": "C36", "title": "mapper_connected_components agrees with the Mapper graph", "statement": "mapper_connected_components returns one value per point: -1 exactly for points in no node; otherwise a node of mapper_graph lying in the connected component of the point's nodes, and two such points get equal values exactly when their nodes are in the same connected component of mapper_graph.", "quantifier": "all datasets, covers, clusterings", "why_tests_cant": "Relates two independent algorithms over all inputs.", "anchors": ["src/tdamapper/core.py:mapper_connected_components", "src/tdamapper/utils/unionfind.py:UnionFind"]}
{"id": "C37", "title": "n_jobs does not change results", "statement": "For a deterministic clustering, mapper_labels returns the same result for every n_jobs and every interleaving of the clustering jobs. (False of the code when the clustering wraps another estimator, e.g. FailSafeClustering as installed by MapperAlgorithm by default: clone() shares the wrapped object between threads and two jobs can race; proved for clusterings without shared sub-objects and for one worker.)", "quantifier": "all numbers of jobs, all interleavings of atomic steps", "why_tests_cant": "Races depend on thread schedules.", "anchors": ["src/tdamapper/core.py:mapper_labels", "src/tdamapper/core.py:FailSafeClustering.fit", "src/tdamapper/_common.py:clone"]}
{"id": "C38", "title": "FailSafeClustering never fails with ValueError", "statement": "FailSafeClustering.fit(X) yields the wrapped clustering's labels when its fit succeeds, the all-zero labelling of X when it raises ValueError, and propagates any other exception; with clustering=None it labels everything 0.", "quantifier": "all wrapped clusterings and datasets", "why_tests_cant": "All behaviours of user clusterings.", "anchors": ["src/tdamapper/core.py:FailSafeClustering.fit", "src/tdamapper/core.py:TrivialClustering.fit"]}
{"id": "C39", "title": "aggregate_graph", "statement": "aggregate_graph(X,g,agg) has exactly the nodes of g as keys and maps each node to agg applied to the list of X values of the node's ids in ids order.", "quantifier": "all graphs from mapper_graph, datasets, aggregation functions", "why_tests_cant": "All inputs.", "anchors": ["src/tdamapper/core.py:aggregate_graph"]}
{"id": "C40", "title": "With TrivialClustering the Mapper graph is the 1-skeleton of the nerve of the cover", "statement": "With TrivialClustering, node k of mapper_graph is the k-th chart (ids = the chart's points) and nodes j,k are adjacent exactly when charts j and k share a point.", "quantifier": "all datasets, covers with non-empty repetition-free charts", "why_tests_cant": "All covers.", "anchors": ["src/tdamapper/core.py:mapper_graph", "src/tdamapper/core.py:TrivialClustering"]}
{"id": "C41", "title": "Mismatched X and y lengths", "statement": "If y is shorter than X the points beyond len(y) belong to no node (label -1 in mapper_connected_components); if the cover of y refers to an index beyond len(X) mapper_labels raises IndexError.", "quantifier": "all datasets of different lengths", "why_tests_cant": "No length validation exists; the behaviour must be derived.", "anchors": ["src/tdamapper/core.py:mapper_labels", "src/tdamapper/_common.py:EstimatorMixin._validate_X_y"]}
{"id": "C42", "title": "MapperClustering and MapperAlgorithm compute the core functions", "statement": "After a successful fit(X,y), MapperClustering.labels_ equals mapper_connected_components on the validated data and MapperAlgorithm.graph_ equals mapper_graph with the clustering wrapped failsafe when requested; defaults are TrivialCover/TrivialClustering and y=X; fit_transform returns graph_; a failing fit leaves the previous graph_/labels_ in place.", "quantifier": "all parameters, datasets, histories of fit calls", "why_tests_cant": "Histories of fits and failures.", "anchors": ["src/tdamapper/learn.py:MapperClustering.fit", "src/tdamapper/learn.py:MapperAlgorithm.fit"]}
{"id": "C43", "title": "Input validation", "statement": "For arrays of numbers, fit raises ValueError exactly for sparse, empty, one-dimensional X, complex data, or data with NaN or infinite entries, and no data with NaN or infinity reaches the cover or clustering. (Arrays of strings raise TypeError instead.)", "quantifier": "all input arrays", "why_tests_cant": "All inputs.", "anchors": ["src/tdamapper/_common.py:EstimatorMixin._validate_X_y"]}
{"id": "C44", "title": "fit does not modify the user's cover and clustering", "statement": "Fitting MapperAlgorithm/MapperClustering leaves the user's cover and clustering objects unmodified. (False of the code when the clustering is a FailSafeClustering around another estimator: clone() shares the wrapped object and it gets fitted; proved for all clusterings that wrap no such object, including MapperClustering.)", "quantifier": "all object graphs and call histories", "why_tests_cant": "Aliasing depends on the object graph.", "anchors": ["src/tdamapper/_common.py:clone", "src/tdamapper/learn.py:MapperAlgorithm.fit"]}
{"id": "C45", "title": "clone returns an unfitted estimator with the same public parameters", "statement": "clone(obj) is a new object of the same class, has the same get_params() as obj, carries none of obj's private or fitted attributes, and leaves obj's parameters unchanged.", "quantifier": "all estimators whose parameters are the attributes set by their constructor, incl. nested estimators", "why_tests_cant": "All parameter assignments and nestings.", "anchors": ["src/tdamapper/_common.py:clone", "src/tdamapper/_common.py:ParamsMixin"]}
{"id": "C46", "title": "get_params/set_params round trip", "statement": "set_params followed by get_params returns the values set for existing public parameters, also nested ones via outer__inner; unknown and private names are ignored and change nothing. (False of the code for names of methods, e.g. set_params(fit=5) replaces the method, and for names nested under a parameter that is no estimator, which raise AttributeError.)", "quantifier": "all parameter dictionaries", "why_tests_cant": "All keys incl. underscores in odd places.", "anchors": ["src/tdamapper/_common.py:ParamsMixin.set_params", "src/tdamapper/_common.py:ParamsMixin.get_params"]}
{"id": "C47", "title": "Euclidean, Manhattan and Chebyshev are metrics", "statement": "Each returned distance function is symmetric, zero exactly on equal vectors, non-negative and satisfies the triangle inequality (over exact reals).", "quantifier": "all real vectors of any common dimension", "why_tests_cant": "A continuum of inputs.", "anchors": ["src/tdamapper/utils/_metrics.py", "src/tdamapper/utils/metrics.py:euclidean", "src/tdamapper/utils/metrics.py:manhattan", "src/tdamapper/utils/metrics.py:chebyshev"]}
{"id": "C48", "title": "minkowski(p)", "statement": "minkowski(p) equals manhattan for p=1, euclidean for p=2, chebyshev for infinite p, and for every real p>=1 is a metric; for 0<p<1, which the function accepts, the triangle inequality fails. Every number is accepted: p=0 counts differing coordinates, negative p gives distance zero to distinct vectors sharing a coordinate, and p=-inf gives Chebyshev.", "quantifier": "all p and all real vectors", "why_tests_cant": "A continuum of inputs.", "anchors": ["src/tdamapper/utils/metrics.py:minkowski", "src/tdamapper/utils/_metrics.py:minkowski"]}
{"id": "C49", "title": "cosine distance", "statement": "On non-zero vectors cosine distance is symmetric, lies in [0,2], is zero exactly for vectors of the same direction, is invariant under positive scaling and satisfies the triangle inequality (over exact reals). On a zero vector the call raises ZeroDivisionError.", "quantifier": "all non-zero real vectors", "why_tests_cant": "A continuum of inputs.", "anchors": ["src/tdamapper/utils/_metrics.py:cosine", "src/tdamapper/utils/metrics.py:cosine"]}
{"id": "C50", "title": "get_metric dispatch", "statement": "get_metric returns a callable argument unchanged (ignoring keyword arguments), the named metric for each supported name, TypeError for superfluous or missing keyword arguments, and ValueError for any other string.", "quantifier": "all strings, callables, keyword sets", "why_tests_cant": "All strings.", "anchors": ["src/tdamapper/utils/metrics.py:get_metric"]}
{"id": "C51", "title": "Plot traces are aligned by node", "statement": "In the Plotly figure the i-th marker position, size, colour and hover text all describe the i-th node of the graph, colours being the aggregate of the node's points; each edge contributes the positions of its two end nodes followed by a gap. The figure has the requested width, height, title and colour scale, and marker sizes scaled by the (middle) requested node size.", "quantifier": "all graphs, positions, colours, dimensions 2 and 3", "why_tests_cant": "All graphs and node orders.", "anchors": ["src/tdamapper/plot_backends/plot_plotly.py:PlotlyPlot"]}
{"id": "C52", "title": "plot_plotly_update updates what is asked", "statement": "plot_plotly_update changes exactly the parts for which arguments are given. (False of the code for title without colors: it always raises; and colors without agg are silently ignored.)", "quantifier": "all subsets of arguments", "why_tests_cant": "All argument combinations.", "anchors": ["src/tdamapper/plot_backends/plot_plotly.py:plot_plotly_update", "src/tdamapper/plot_backends/plot_plotly.py:_to_titles"]}
{"id": "C53", "title": "MapperPlot assigns one position per node", "statement": "For dim 2 or 3 and a layout engine that returns one coordinate tuple per vertex, MapperPlot.positions has exactly the graph's nodes as keys with dim coordinates; an unknown layout engine raises ValueError, and so does a negative seed with igraph.", "quantifier": "all graphs, engines, dims, seeds", "why_tests_cant": "All graphs.", "anchors": ["src/tdamapper/plot.py:MapperPlot"]}
{"id": "C54", "title": "App configuration honours the user's settings", "statement": "The MapperConfig built by the app carries each setting entered by the user, falling back to the default when it is empty. (False of the code: the two 'Scaling' switches never reach the config, and a value 0 such as seed 0 is replaced by the default.)", "quantifier": "all UI states", "why_tests_cant": "All UI states.", "anchors": ["src/tdamapper/app.py:App.get_mapper_config"]}
{"id": "C55", "title": "App storage stays consistent", "statement": "In every history of upload/load/run/redraw actions, a run that fails or finds no data leaves the stored graph unchanged, and drawing needs a stored graph. (The stronger 'the drawn graph was computed from the currently stored data' is false: loading new data and pressing Redraw draws the old graph over the new data.)", "quantifier": "all action histories incl. data loads while a run is pending", "why_tests_cant": "All histories and interleavings of async handlers.", "anchors": ["src/tdamapper/app.py:App.load_data", "src/tdamapper/app.py:App.async_run_mapper", "src/tdamapper/app.py:App.async_draw_mapper"]}
{"id": "C56", "title": "fix_data", "statement": "fix_data keeps exactly the numeric columns having some value, in order, keeps every present value, leaves no missing value (each is replaced by its column's mean), and is idempotent.", "quantifier": "all tables with finite numeric entries", "why_tests_cant": "All tables.", "anchors": ["src/tdamapper/app.py:fix_data"]}
{"id": "C57", "title": "run_mapper decisions", "statement": "run_mapper returns None exactly for empty data or an unknown cover or clustering type; an unknown lens falls back to a two-component PCA; excluded columns that do not exist are ignored; scaling flags scale lens and data independently and never affect the returned lens frame.", "quantifier": "all configurations and tables", "why_tests_cant": "All configurations.", "anchors": ["src/tdamapper/app.py:run_mapper"]}
{"id": "C58", "title": "PyVis pages", "statement": "plot_pyvis writes one page to the given path and changes no other file, and none if it raises. The network has one vertex per node, in order, at the node's position, and one edge per edge; each colour is taken from the colour scale at a position in [0,1] that grows with the node's colour, from the least (0) to the greatest (1); when nodes differ in size, marker sizes are 25*node_size*sqrt(size/largest) rounded, grow with the number of points and are at most 25*node_size rounded; when all nodes have the same size every marker has size 25 whatever node_size. The hover text gives colour and name of the node. (Its 'size' is the marker size, not the number of points.)", "quantifier": "all graphs, positions, colour arrays, aggregations, node_size>=0, colour scales, paths and files", "why_tests_cant": "All graphs and values; a test cannot exclude that one marker or edge is missing or misplaced.", "anchors": ["src/tdamapper/plot_backends/plot_pyvis.py:_compute_net", "src/tdamapper/plot_backends/plot_pyvis.py:plot_pyvis"]}
{"id": "C59", "title": "partition splits around a value", "statement": "partition(data,start,end,p) returns h with everything in [start,h) < p and everything in [h,end) >= p, h-start being the number of elements below p; rows move together and only inside [start,end).", "quantifier": "all arrays, bounds start<=end<=len, values p", "why_tests_cant": "All arrays and duplicate patterns.", "anchors": ["src/tdamapper/utils/quickselect.py:partition", "src/tdamapper/utils/quickselect.py:_partition"]}
{"id": "C60", "title": "Iterating a MaxHeap yields all its items", "statement": "A for-loop over a heap yields every stored pair exactly once. (False for nested loops over the same heap, since the heap is its own single iterator; proved for loops that are not interrupted by another iteration.)", "quantifier": "all heaps", "why_tests_cant": "Nested use is not tested.", "anchors": ["src/tdamapper/utils/heap.py:MaxHeap.__iter__", "src/tdamapper/utils/heap.py:MaxHeap.__next__"]}
{"id": "C61", "title": "UnionFind accepts any iterable", "statement": "Elements given at construction can be united, whatever iterable supplied them. (False of the code for one-shot iterators such as generators: the constructor iterates twice, sizes stay empty, and uniting two different elements raises KeyError; for re-iterable arguments C05-C08 hold.)", "quantifier": "all element lists and all pairs of different elements", "why_tests_cant": "Tests pass lists only.", "anchors": ["src/tdamapper/utils/unionfind.py:UnionFind.__init__"]}
{"id": "C62", "title": "leaf_capacity bounds the size of a leaf", "statement": "A leaf of a VPTree holds at most leaf_capacity points. (False of the code: flat leaves hold up to twice the capacity, and leaves of small radius can be larger; the bounds that do hold are proved for both kinds.)", "quantifier": "all datasets, any distance function, all parameters with leaf_capacity>=1, all random draws, every leaf", "why_tests_cant": "Leaf sizes are internal and depend on the split of every range.", "anchors": ["src/tdamapper/utils/vptree.py:VPTree", "src/tdamapper/utils/vptree_flat/builder.py:Builder._build_iter", "src/tdamapper/utils/vptree_hier/builder.py:Builder._build_rec"]}
{"id": "C63", "title": "Charts must be repetition-free", "statement": "The Cover protocol does not ask charts to be repetition-free and mapper_graph does not check it: a cover listing an index twice makes a node count that point twice and be adjacent to itself, so the repetition-free hypothesis of C31-C36 is needed.", "quantifier": "existential: one cover (the hypothesis of the universal properties C31-C36)", "why_tests_cant": "A necessity statement about a hypothesis over all covers.", "anchors": ["src/tdamapper/core.py:mapper_labels", "src/tdamapper/core.py:mapper_graph", "src/tdamapper/protocols.py:Cover"]}
{"id": "C64", "title": "Refitting a cover forgets earlier data", "statement": "After any sequence of successful fits, fitting a cover on X leaves it as a fresh cover fitted on X; searching before any fit raises AttributeError. (False of the code for cubical covers and empty X: fit returns without touching the object, and search keeps answering with indices of the earlier dataset; proved for BallCover, KNNCover, and for cubical covers on non-empty X.)", "quantifier": "all parameters, all histories of fits, all datasets", "why_tests_cant": "Ranges over unbounded histories of calls on one object.", "anchors": ["src/tdamapper/cover.py:BallCover.fit", "src/tdamapper/cover.py:KNNCover.fit", "src/tdamapper/cover.py:BaseCubicalCover.fit", "src/tdamapper/cover.py:BaseCubicalCover.search"]}
{"id": "C65", "title": "Searches are exact with every metric selected by name", "statement": "A VPTree built with get_metric(name) answers ball and nearest-neighbour queries exactly, for euclidean, manhattan, chebyshev and minkowski (p>=1 or infinite) on all vectors, and for cosine on non-zero vectors (over exact reals).", "quantifier": "all datasets, kinds, leaf parameters, random draws, queries, radii, k, dimensions and orders p>=1", "why_tests_cant": "Requires the triangle inequality of each metric for all vectors.", "anchors": ["src/tdamapper/utils/metrics.py:get_metric", "src/tdamapper/utils/vptree.py:VPTree"]}
{"id": "C66", "title": "Menus and slider show what a new plot would", "statement": "Pressing a button of the colour menu, choosing a step of the size slider or a colour scale of a figure drawn by plot_plotly shows exactly the traces that plot_plotly draws for that column and its title, that size or that colour scale alone; the labels are the titles, sizes and names; the active entries are what the figure shows. (The last is false of the code for colour scales when the first given name is not in Plotly's list.)", "quantifier": "all graphs, positions, colour arrays, titles, sizes, colour scales, dimensions 2 and 3, every button and step", "why_tests_cant": "Ranges over all figures and all buttons; what a button does is data interpreted by the browser.", "anchors": ["src/tdamapper/plot_backends/plot_plotly.py:PlotlyPlot.set_ui", "src/tdamapper/plot_backends/plot_plotly.py:plot_plotly"]}
{"id": "C67", "title": "The history of a figure does not matter", "statement": "After any sequence of plot_plotly_update calls (colours, aggregation and title together or not at all) on a figure of plot_plotly, the figure is the one that plot_plotly draws with the arguments given last.", "quantifier": "all plots, all finite sequences of updates whose arguments can be drawn", "why_tests_cant": "Ranges over unbounded histories of updates.", "anchors": ["src/tdamapper/plot_backends/plot_plotly.py:plot_plotly_update", "src/tdamapper/plot_backends/plot_plotly.py:plot_plotly"]}
{"id": "C68", "title": "matplotlib figures", "statement": "plot_matplotlib draws each node once, in order, at its position, with its aggregated colour and the size 200*node_size*sqrt(size/largest), each edge once from end to end, and colours from the least to the greatest. (False in three dimensions: if the graph has an edge it raises ValueError.)", "quantifier": "all graphs with positions, colour arrays, aggregations, sizes", "why_tests_cant": "All graphs.", "anchors": ["src/tdamapper/plot_backends/plot_matplotlib.py:plot_matplotlib"]}
{"id": "C69", "title": "The text of an estimator", "statement": "repr(estimator) succeeds; it is a call of the class whose keyword arguments are, in attribute order and without repetition, exactly the public parameters whose text differs from that of the default, each with its own text. An estimator built without arguments is shown as Class(), and a clone is shown like the estimator it was made from. (repr raises AttributeError if a public attribute not assigned by the constructor was added.)", "quantifier": "all estimators, nested or not, with all parameter values", "why_tests_cant": "Ranges over all classes, parameter values and nestings.", "anchors": ["src/tdamapper/_common.py:ParamsMixin.__repr__", "src/tdamapper/_common.py:clone"]}
{"id": "C70", "title": "The tree, the pivots and the random draws do not affect the result", "statement": "BallCover.apply depends only on data, metric and radius, and CubicalCover.apply only on data, algorithm, number of intervals and overlap: for any kind of tree, leaf capacity, leaf radius, pivoting strategy, random draws and earlier fits the charts are the same, in the same order, up to the order of indices within a chart. If the clustering does not depend on the order of points, the Mapper graph is then the same up to the numbers of its nodes: corresponding nodes have the same size and ids, and the edges and connected components agree.", "quantifier": "all datasets, pairs of parameter sets that agree in metric and radius (or algorithm, intervals and overlap), random draws, clusterings insensitive to order, iteration orders of sets", "why_tests_cant": "Ranges over all pairs of runs with different random draws and tuning parameters.", "anchors": ["src/tdamapper/cover.py:BallCover", "src/tdamapper/cover.py:CubicalCover", "src/tdamapper/core.py:mapper_graph", "src/tdamapper/core.py:mapper_connected_components", "src/tdamapper/utils/vptree.py:VPTree"]}
{"id": "C71", "title": "KNNCover is reproducible", "statement": "KNNCover.apply depends only on data, metric and number of neighbours, not on the tree, its pivots or random draws. (False of the code when distances tie: two runs with other random pivots give graphs with other nodes and other connected components. Proved for data without ties.)", "quantifier": "all datasets, pairs of parameter sets that agree in metric and neighbours, random draws", "why_tests_cant": "Ranges over all pairs of runs with different random draws and tuning parameters.", "anchors": ["src/tdamapper/cover.py:KNNCover", "src/tdamapper/utils/vptree_flat/knn_search.py", "src/tdamapper/utils/vptree_hier/knn_search.py"]}
{"id": "C72", "title": "The order of the rows does not matter", "statement": "Shuffling the rows of the data and of the lens alike gives the same Mapper graph and the same connected components up to the names of points and nodes. (Proved for StandardCubicalCover and TrivialCover with clusterings insensitive to order, and for BallCover if being nearer than the radius is transitive on the rows. False of the code for BallCover otherwise, and for ProximityCubicalCover and KNNCover, which choose centres in dataset order; for KNNCover even without tied distances.)", "quantifier": "all datasets, all permutations of the rows, all parameters, random draws, clusterings insensitive to order", "why_tests_cant": "Ranges over all datasets and permutations.", "anchors": ["src/tdamapper/cover.py:StandardCubicalCover.apply", "src/tdamapper/core.py:proximity_net", "src/tdamapper/core.py:mapper_graph"]}
{"id": "C73", "title": "Searches with rounded distances", "statement": "When distances are floating-point numbers computed with error at most u, a VPTree search never crashes; a ball search returns every entry whose true distance is within the radius by a margin of 4u and only entries whose true distance exceeds it by at most u; a nearest-neighbour search returns no entry farther than one left out by more than 5u plus the error of one subtraction. (Without a margin this is false: an entry whose true and computed distance are both exactly in the ball can be missed.)", "quantifier": "all datasets, kinds, leaf parameters, random draws, queries, radii, k; all machine numbers with faithful subtraction; all symmetric computed distances with bounded error; finite, no NaN", "why_tests_cant": "Ranges over all roundings of all distances in all trees.", "anchors": ["src/tdamapper/utils/vptree_flat/ball_search.py", "src/tdamapper/utils/vptree_flat/knn_search.py", "src/tdamapper/utils/vptree_hier/ball_search.py", "src/tdamapper/utils/vptree_hier/knn_search.py"]}
{"id": "C74", "title": "BallCover covers every point even when the metric is not exact", "statement": "For every symmetric distance function with d(x,x) < radius - a metric or not, exact or rounded - BallCover.apply yields well-formed charts that cover every row, each chart holding only rows whose computed distance from its centre is below the radius; with rounded metrics a chart contains every row that is inside by the margin. (Symmetry is needed: with an asymmetric distance a row can be left out of every chart.)", "quantifier": "all datasets, all symmetric distance functions, radii, kinds of tree, leaf parameters, random draws", "why_tests_cant": "Ranges over all distance functions, including those that violate the triangle inequality.", "anchors": ["src/tdamapper/cover.py:BallCover", "src/tdamapper/core.py:proximity_net", "src/tdamapper/utils/vptree.py:VPTree"]}
{"id": "C75", "title": "With trivial clustering the Mapper graph is the nerve of the cover", "statement": "With the trivial clustering, mapper_graph has one node per chart, numbered in the order of the charts, whose ids are the points of the chart in increasing order, and two nodes are adjacent exactly if their charts share a point. With BallCover: one node for each centre of a maximal set of rows at mutual distance at least the radius, consisting of the rows nearer than the radius, adjacent exactly if some row is near to both centres.", "quantifier": "all datasets, all covers with well-formed charts; all ball covers, metrics, random draws", "why_tests_cant": "Combines cover, clustering and graph for all inputs.", "anchors": ["src/tdamapper/core.py:mapper_graph", "src/tdamapper/core.py:TrivialClustering", "src/tdamapper/cover.py:BallCover"]}
{"id": "C76", "title": "Components are chains of clusters", "statement": "Two points have the same label in mapper_connected_components exactly if a chain of points links them in which neighbours are in one cluster of one chart; a point has label -1 exactly if it is in no cluster. With BallCover and trivial clustering the steps of the chain are shorter than twice the radius. (Nearness is not enough: points nearer than the radius can be in different components, shown by a witness.)", "quantifier": "all datasets, covers, clusterings, iteration orders of sets; all ball covers", "why_tests_cant": "Ranges over all chains of points.", "anchors": ["src/tdamapper/core.py:mapper_connected_components", "src/tdamapper/cover.py:BallCover"]}
{"id": "C77", "title": "Hierarchical trees are balanced", "statement": "A hierarchical VPTree of n points with leaf capacity at least 1 has height at most log2(n) rounded up, for every distance function, pivot strategy and draw. So building and searching nest at most that many calls, and never reach the interpreter's recursion limit for n <= 2^(limit-1).", "quantifier": "all datasets, distance functions, parameters with leaf_capacity >= 1, random draws, recursion limits", "why_tests_cant": "Recursion depth for every dataset size cannot be sampled.", "anchors": ["src/tdamapper/utils/vptree_hier/builder.py:Builder._build_rec", "src/tdamapper/utils/vptree_hier/common.py"]}
{"id": "C78", "title": "Infinite distances and NaN", "statement": "With a symmetric distance function that may return infinities and NaN, building a VPTree, ball search and BallCover.apply never fail nor loop; a search returns only entries whose distance is in the ball, each at most as often as it is in the dataset; charts contain only rows within the radius of some row. If the distances among the rows are finite, every row within the radius of itself is covered. (Not otherwise, shown by witnesses: with a metric with infinite values rows are left out of every chart, and with the hierarchical tree one row with NaN distances hides another.)", "quantifier": "all datasets, symmetric distance functions into floating-point numbers with infinities and NaN, radii, kinds of tree, leaf parameters, random draws", "why_tests_cant": "Ranges over all placements of infinities and NaN in all arrays and trees.", "anchors": ["src/tdamapper/utils/quickselect.py:quickselect", "src/tdamapper/utils/vptree.py:VPTree.ball_search", "src/tdamapper/cover.py:BallCover"]}
{"id": "C79", "title": "The figure of the app", "statement": "Whatever table and labels a user loads, once a run of Mapper has returned a graph, drawing it succeeds for every setting with a non-negative seed. The figure offers as colours each label, lens value and data column, in that order and under its name; choosing one colours every node with the mean of that column over the node's points, ignoring rows the column does not have; at first the first of them is shown. Nodes and edges are where the layout with the chosen dimensions, iterations and seed puts them. It has a slider with the node sizes 0, 1/8, ..., 2 starting at 1, and the five colour scales. (A negative seed, which the page accepts, makes drawing fail.)", "quantifier": "all tables, labels, graphs, lenses, settings, layouts", "why_tests_cant": "Ranges over all tables, including ones whose lengths differ.", "anchors": ["src/tdamapper/app.py:create_mapper_figure", "src/tdamapper/app.py:run_mapper", "src/tdamapper/app.py:fix_data", "src/tdamapper/plot_backends/plot_plotly.py:plot_plotly"]}
{"id": "C80", "title": "Iterating over the charts of a cover", "statement": "cover.apply(X) runs nothing before its first chart is asked for. From then on the generator yields the charts of X in order, each exactly once, and then stops, whatever else is done with the cover in between: parameters changed, searches made, other generators made and advanced. (Holds in full for CubicalCover, whose generators have their own state. For BallCover and KNNCover it holds as long as the cover is not fitted again, and for BallCover also if everything concerns the same data; advancing two generators over different data in turn makes one of them miss rows, shown by a witness.)", "quantifier": "all histories of fit, search, set_params, apply and next on a cover and all its generators; all datasets, parameters, random draws", "why_tests_cant": "Ranges over all interleavings of all iterations.", "anchors": ["src/tdamapper/cover.py:BallCover.apply", "src/tdamapper/cover.py:KNNCover.apply", "src/tdamapper/cover.py:CubicalCover.apply", "src/tdamapper/cover.py:StandardCubicalCover.apply", "src/tdamapper/core.py:proximity_net"]}
{"id": "C81", "title": "Covers whose fit raised", "statement": "If fit of a cover raises, searches afterwards either answer as before or raise AttributeError, and the next fit that succeeds makes the cover answer as a new one, whatever happened before. (Holds in full for CubicalCover. BallCover, KNNCover and the two other cubical covers recover, but when radius, neighbors, n_intervals or overlap_frac was changed before the fit that raised, searches of the old data use new parameters, shown by witnesses.)", "quantifier": "all states of a cover, all datasets, parameters, random draws, all ways in which fit raises", "why_tests_cant": "Ranges over all states left behind by all failures.", "anchors": ["src/tdamapper/cover.py:BallCover.fit", "src/tdamapper/cover.py:KNNCover.fit", "src/tdamapper/cover.py:BaseCubicalCover.fit", "src/tdamapper/cover.py:CubicalCover.fit"]}
{"id": "C82", "title": "Cubical covers with floating-point numbers", "statement": "Whatever the entries of the data, number of intervals and overlap fraction between 0 and 1, the cubical covers computed in floating-point arithmetic cover every row, and a search at a row returns the rows in the box around its cell. (Proved up to rounding: with relative rounding error w and E = max over columns of n_intervals * w * (1 + |least entry| / width), the box is right up to a margin proportional to E, and every row is covered if overlap_frac > 48 E + 6 w. Without such a bound rows are left out: shown in double precision by a witness with entries around 2^53.)", "quantifier": "all datasets with at least one column, parameters, random draws, all number formats with relative rounding error at most 1/64, in particular IEEE 754 double precision without overflow and underflow", "why_tests_cant": "Ranges over all roundings in all operations on all data.", "anchors": ["src/tdamapper/cover.py:BaseCubicalCover", "src/tdamapper/cover.py:ProximityCubicalCover", "src/tdamapper/cover.py:StandardCubicalCover", "src/tdamapper/utils/_metrics.py:chebyshev"]}
{"id": "C83", "title": "Nearest neighbours with infinite and NaN distances", "statement": "With any distance function, which may return infinities and NaN, knn_search and KNNCover.apply terminate without error; a search returns min(k, n) entries of the dataset, none farther than one left out. (Totality, at most k entries, none repeated beyond the dataset, and well-formed charts hold for every distance function; the answer is exact when distances are finite. With infinite distances fewer than k entries are returned and rows within reach are missed, and a single row with NaN distances changes the neighbours of the others, shown by witnesses for both kinds of tree.)", "quantifier": "all datasets, distance functions with values in floating-point numbers including infinities and NaN, kinds of tree, parameters, random draws, queries, k", "why_tests_cant": "Ranges over all datasets and all distance functions.", "anchors": ["src/tdamapper/utils/vptree_flat/knn_search.py:KnnSearch", "src/tdamapper/utils/vptree_hier/knn_search.py:KnnSearch", "src/tdamapper/utils/heap.py:MaxHeap", "src/tdamapper/cover.py:KNNCover"]}
{"id": "C84", "title": "From arrays to the Mapper graph, with the covers of the library", "statement": "MapperAlgorithm(cover).fit_transform(X, y) without a clustering, for two-dimensional arrays of numbers with as many rows (y may be omitted, and for the cubical covers be one-dimensional), returns: with a BallCover, the graph of open balls around rows of the lens at mutual distance at least the radius whose balls contain all rows; with a cubical cover, the graph of open boxes around cells of rows, together containing all rows (all cells of rows, with the standard algorithm); with a KNNCover, if no row coincides with as many others as there are neighbours, the graph of sets of nearest neighbours that contain all rows. There is one node per region, its ids are the positions of the rows in the region in increasing order, its size is their number, and two nodes are joined exactly if some row is in both regions. MapperClustering.fit gives two rows one label exactly if a chain of rows links them, each in one region with the next.", "quantifier": "all arrays of finite numbers, parameters of the covers and of the estimators (objects on any heap, with any other objects), pseudo-metrics by name or as a function, random draws", "why_tests_cant": "Ranges over all data, parameters and objects; composes validation, parameters, covers, clustering and graph construction.", "anchors": ["src/tdamapper/learn.py:MapperAlgorithm", "src/tdamapper/learn.py:MapperClustering", "src/tdamapper/cover.py:BallCover", "src/tdamapper/cover.py:KNNCover", "src/tdamapper/cover.py:CubicalCover", "src/tdamapper/core.py:mapper_graph", "src/tdamapper/core.py:mapper_connected_components", "src/tdamapper/_common.py:EstimatorMixin"]}
{"id": "C85", "title": "Distances computed in floating point", "statement": "Computed in floating-point arithmetic, with the additions in any order, the named metrics are symmetric to the last bit on all vectors; the distance of a vector with finite entries from itself is zero; euclidean, manhattan and chebyshev have a relative error of at most (1+w)^(h+4)-1, (1+w)^(h+1)-1 and w, where w is the rounding error of one operation and h the number of additions an entry goes through; the square of cosine differs from the exact one by at most 4((1+w)^(5h+14)-1); with exact operations all metrics are the exact ones; a ball search of a tree is right up to the corresponding margin; and a BallCover covers every row. (Zero self-distance and coverage fail for cosine: in double precision cosine([1,1,1],[1,1,1]) is NaN and such rows are in no chart, shown by a witness.)", "quantifier": "all vectors of all dimensions, all orders of addition, orders p > 0 of minkowski, number formats with infinities and NaN (symmetry, self-distance, coverage) or with relative error at most 1/64 (accuracy), datasets, kinds of tree, parameters, random draws", "why_tests_cant": "Ranges over all vectors, all roundings and all orders in which a compiler may add.", "anchors": ["src/tdamapper/utils/_metrics.py:euclidean", "src/tdamapper/utils/_metrics.py:manhattan", "src/tdamapper/utils/_metrics.py:chebyshev", "src/tdamapper/utils/_metrics.py:minkowski", "src/tdamapper/utils/_metrics.py:cosine", "src/tdamapper/utils/metrics.py:get_metric", "src/tdamapper/cover.py:BallCover"]}
{"id": "C86", "title": "Units of measurement", "statement": "Measuring the lens in other units does not change the Mapper graph. With a BallCover the charts depend only on which pairs of rows are nearer than the radius, so multiplying all distances and the radius by the same positive number, or applying an isometry, changes nothing; with a KNNCover they depend only on the order of the distances from each row; with a cubical cover each column may be multiplied by a positive number and shifted. (KNNCover: proved without ties, see C71. Cubical covers: proved unless a column gets narrower than the machine epsilon or ceases to be; such columns count as constant, which a witness shows to depend on the unit.)", "quantifier": "all pairs of datasets related in the stated way, parameters of the covers, trees, random draws, clusterings", "why_tests_cant": "Ranges over all datasets and all changes of units.", "anchors": ["src/tdamapper/cover.py:BallCover", "src/tdamapper/cover.py:KNNCover", "src/tdamapper/cover.py:BaseCubicalCover", "src/tdamapper/cover.py:CubicalCover", "src/tdamapper/core.py:proximity_net", "src/tdamapper/core.py:mapper_graph"]}
{"id": "C87", "title": "Searches after the data was written to in place", "statement": "If an array is written to after a VPTree, BallCover or KNNCover was built on it, a search still succeeds and returns the rows which are in the ball, or nearest, now. (No row outside the ball is ever returned. All rows in the ball by the margin by which distances among rows changed are returned, so that the answer is exact after a rigid motion of the whole array, and right up to twice the largest move otherwise; neighbours are right up to that margin. Without a margin a search at a row that was written to misses that row, shown by a witness for both kinds of tree.)", "quantifier": "all datasets, contents of the rows at the time of the fit and of the search, pseudo-metrics, kinds of tree, parameters, random draws, queries", "why_tests_cant": "Ranges over all writes between fit and search.", "anchors": ["src/tdamapper/utils/vptree.py:VPTree", "src/tdamapper/utils/vptree_flat/builder.py:Builder", "src/tdamapper/utils/vptree_hier/builder.py:Builder", "src/tdamapper/utils/vptree_flat/ball_search.py:BallSearch", "src/tdamapper/utils/vptree_hier/ball_search.py:BallSearch", "src/tdamapper/utils/vptree_flat/knn_search.py:KnnSearch", "src/tdamapper/utils/vptree_hier/knn_search.py:KnnSearch", "src/tdamapper/cover.py:BallCover", "src/tdamapper/cover.py:KNNCover"]}
{"id": "C88", "title": "Calls of the distance function", "statement": "Building a tree on n entries calls the distance function on pairs of entries only, at most n (log2 n + 1) times with the logarithm rounded up (three times as often with furthest pivoting). A search calls it with the query point and an entry, at most once for every entry, so never more often than a scan of the data. BallCover.apply and KNNCover.apply call it on pairs of rows only. If a call raises, the exception of the first such call is what the user gets, and if no call raises the result is the same; a row on which the metric raises is never skipped silently: both covers raise. In particular with cosine both raise ZeroDivisionError exactly if some row is null.", "quantifier": "all datasets, distance functions (no law assumed), exceptions they may raise, kinds of tree, parameters with positive leaf capacity, random draws, queries, radii and numbers of neighbours", "why_tests_cant": "Ranges over all datasets, distance functions and exceptions.", "anchors": ["src/tdamapper/utils/vptree.py:VPTree", "src/tdamapper/utils/vptree_flat/builder.py:Builder", "src/tdamapper/utils/vptree_hier/builder.py:Builder", "src/tdamapper/utils/vptree_flat/ball_search.py:BallSearch", "src/tdamapper/utils/vptree_hier/ball_search.py:BallSearch", "src/tdamapper/utils/vptree_flat/knn_search.py:KnnSearch", "src/tdamapper/utils/vptree_hier/knn_search.py:KnnSearch", "src/tdamapper/cover.py:BallCover", "src/tdamapper/cover.py:KNNCover", "src/tdamapper/utils/_metrics.py:cosine"]}
{"id": "C89", "title": "A MapperClustering as the clustering of another estimator", "statement": "With a MapperClustering as clustering parameter, MapperAlgorithm.fit_transform returns the graph obtained by clustering the points of every chart as that MapperClustering, fitted alone on those points, would label them, with the same exceptions; likewise for a MapperClustering inside a MapperClustering, at any depth. Hence with ball covers for both, two points of a ball of the lens are in one node exactly if a chain of points of that ball links them, each in one of the smaller balls of the data space with the next; different clusters are different nodes, and nodes are adjacent exactly if they share a point.", "quantifier": "all object graphs, covers, inner clusterings, depths of nesting, inputs; for the ball covers all arrays, pseudo-metrics, radii, kinds of tree and parameters", "why_tests_cant": "Ranges over all inputs and nestings.", "anchors": ["src/tdamapper/learn.py:MapperClustering.fit", "src/tdamapper/learn.py:MapperAlgorithm.fit", "src/tdamapper/core.py:mapper_labels", "src/tdamapper/core.py:mapper_connected_components", "src/tdamapper/_common.py:clone"]}
{"id": "C90", "title": "Appending rows to the dataset", "statement": "With a BallCover and no clustering, the Mapper graph of a dataset with rows appended contains that of the dataset: every node keeps its number and, of the old rows, exactly those it had, edges remain, and rows of one connected component stay in one. If every appended row coincides with an old one there are no further nodes, and coinciding rows are in the same nodes. The same holds for the cubical covers as long as the appended rows are within the bounding box of the dataset, except that with the standard algorithm the numbers of the old nodes grow by the number of new nodes. (Outside the bounding box, and with a KNNCover, rows of one component can be separated: shown by witnesses.)", "quantifier": "all datasets and appended rows, pseudo-metrics, radii, intervals, overlap fractions, different trees, pivots and random draws for the two runs", "why_tests_cant": "Ranges over all datasets and all rows appended to them.", "anchors": ["src/tdamapper/core.py:proximity_net", "src/tdamapper/core.py:mapper_graph", "src/tdamapper/core.py:mapper_connected_components", "src/tdamapper/cover.py:BallCover", "src/tdamapper/cover.py:KNNCover", "src/tdamapper/cover.py:ProximityCubicalCover", "src/tdamapper/cover.py:StandardCubicalCover"]}
{"id": "C91", "title": "Nodes without a colour", "statement": "Where values are missing (NaN), the colour of a node is, with the default aggregation, the mean of the values of its points that are present, and is missing exactly if all of them are. The range of the colours is from the least to the greatest colour of the nodes that have one, and these nodes are coloured as if the others were absent; nodes without a colour cannot be mistaken for others. (In pyvis the range is right, but a node without a colour is drawn like the node with the greatest one. In Plotly and Matplotlib the range is right if the first node has a colour; otherwise both ends of the range are NaN, whatever the other nodes.)", "quantifier": "all graphs, values with missing entries", "why_tests_cant": "Ranges over all graphs and all patterns of missing values.", "anchors": ["src/tdamapper/core.py:aggregate_graph", "src/tdamapper/plot_backends/plot_plotly.py:_set_colors", "src/tdamapper/plot_backends/plot_matplotlib.py:plot_matplotlib", "src/tdamapper/plot_backends/plot_pyvis.py:_compute_net"]}
{"id": "C92", "title": "Calling the constructors", "statement": "A constructor call is accepted exactly if its arguments fit the documented parameters: not more positional arguments than parameters, no unknown or doubled keyword; otherwise it raises TypeError. It makes one new object, every parameter having the given value or else its default, and changes no other object. A MapperAlgorithm made with such a cover and otherwise defaults, from any history of earlier objects, gives the graph of the balls, hypercubes or neighbourhoods it was asked for; without any argument, or with a single interval per axis, it gives a single node holding all points. A MapperClustering made this way labels the points by the connected components.", "quantifier": "all argument lists, all heaps of earlier objects, all datasets", "why_tests_cant": "Ranges over all ways of passing arguments, all earlier objects and all datasets.", "anchors": ["src/tdamapper/cover.py:BallCover.__init__", "src/tdamapper/cover.py:KNNCover.__init__", "src/tdamapper/cover.py:BaseCubicalCover.__init__", "src/tdamapper/cover.py:CubicalCover.__init__", "src/tdamapper/learn.py:MapperAlgorithm.__init__", "src/tdamapper/learn.py:MapperClustering.__init__", "src/tdamapper/core.py:TrivialClustering.__init__"]}
{"id": "C93", "title": "The columns of the lens", "statement": "With a given overlap fraction the result of the cubical covers depends on the set of the columns of the lens only: putting the columns in another order, repeating columns and adding columns that are constant gives the same charts, the same Mapper graph up to the names of the nodes and the same connected components. For BallCover, and for KNNCover if no distances are tied, the same holds of the order of the columns and of added constant columns, with every metric of the library except cosine, whose value only ignores columns of zeros. (With overlap_frac=None adding a constant column does change the result of the cubical covers, as the overlap is then chosen by the number of columns.)", "quantifier": "all lenses, all rearrangements of their columns, all parameters, trees and random draws", "why_tests_cant": "Ranges over all lenses and all rearrangements of columns.", "anchors": ["src/tdamapper/cover.py:BaseCubicalCover._get_bounds", "src/tdamapper/cover.py:BaseCubicalCover._offset", "src/tdamapper/cover.py:StandardCubicalCover.apply", "src/tdamapper/cover.py:ProximityCubicalCover.apply", "src/tdamapper/cover.py:BallCover.apply", "src/tdamapper/utils/metrics.py:get_metric"]}
{"id": "C94", "title": "Coarser parameters, coarser graphs", "statement": "With the trivial clustering, enlarging the overlap fraction, the radius or the number of neighbours, or replacing the number of intervals by one of its divisors, only makes the Mapper graph coarser: every node's rows are in one node of the new graph, joined nodes go to joined nodes or to the same node, and rows in one connected component stay in one connected component.", "quantifier": "all datasets and lenses, all parameters, trees and random draws", "why_tests_cant": "Compares two runs on every dataset; examples only show that some datasets behave well.", "anchors": ["src/tdamapper/cover.py:StandardCubicalCover.apply", "src/tdamapper/cover.py:BallCover.apply", "src/tdamapper/cover.py:KNNCover.apply", "src/tdamapper/cover.py:ProximityCubicalCover.apply", "src/tdamapper/core.py:mapper_graph", "src/tdamapper/core.py:mapper_connected_components"]}
{"id": "C95", "title": "The coarsest and the finest parameters", "statement": "If the cover has a single chart, as with TrivialCover, a radius above all distances from the first row, at least as many neighbours as rows, or one interval, then Mapper is the clustering itself: the graph has no edges, its nodes are the clusters, and mapper_connected_components returns the labels of the clustering, with -1 for noise. If the radius is below all distances, or with one neighbour and distinct rows, every row is a chart of its own, and with the trivial clustering the graph has one node per row and no edges.", "quantifier": "all datasets, lenses and clusterings, all trees and random draws", "why_tests_cant": "Ranges over all datasets and clusterings.", "anchors": ["src/tdamapper/core.py:mapper_connected_components", "src/tdamapper/core.py:mapper_graph", "src/tdamapper/core.py:TrivialCover", "src/tdamapper/core.py:proximity_net", "src/tdamapper/cover.py:BallCover.apply", "src/tdamapper/cover.py:KNNCover.apply", "src/tdamapper/cover.py:BaseCubicalCover"]}
{"id": "C96", "title": "What the server keeps does not change a page", "statement": "In the Streamlit app, a page shows what its controls ask for, whatever pages the server has shown before, to whatever users: data, graph, statistics and figure are those of a new server, and it fails exactly if it fails on a new server. (Data, graph and statistics do. The figure does not: layouts are kept by nodes and edges only, so after a page of other data whose graph has the same nodes and edges the colours are computed from the points of the other graph, or the page raises IndexError.)", "quantifier": "all sequences of pages, all data, estimators and settings", "why_tests_cant": "Ranges over all histories of the server.", "anchors": ["app/streamlit_app.py:main", "app/streamlit_app.py:load_data", "app/streamlit_app.py:compute_mapper", "app/streamlit_app.py:compute_mapper_plot", "app/streamlit_app.py:compute_mapper_fig", "app/streamlit_app.py:_encode_graph", "app/streamlit_app.py:_hash_mapper_plot"]}
{"id": "C97", "title": "Limits, modes and downloads of the Streamlit app", "statement": "With limits enabled, no page is ever shown for data or a graph beyond them: too large data give a message, and too large graphs ValueError, whatever was shown before. The aggregation by mode gives the most frequent value, the least one of several. The table that is downloaded holds the features and targets of each sample in one row. (It does not: the targets are put in rows of their own below the features.)", "quantifier": "all sequences of pages, all data, graphs and limits; all lists of values", "why_tests_cant": "Ranges over all histories, data and lists of values.", "anchors": ["app/streamlit_app.py:_check_limits_dataset", "app/streamlit_app.py:_check_limits_mapper_graph", "app/streamlit_app.py:mode", "app/streamlit_app.py:data_download_button"]}
{"id": "C98", "title": "Parameters set later take effect at the next fit, and earlier fits do not matter", "statement": "In any history of calls of fit and set_params, on any number of estimators that may share covers and clusterings, the parameters are those set last; and the next fit computes the graph or the labels of estimators which have these parameters and were never fitted. In particular, after set_params(cover__radius=r) on one estimator, all estimators with the same cover compute the graph for balls of radius r.", "quantifier": "all histories of valid calls of fit and set_params, nested parameters and replaced nested estimators included; all data", "why_tests_cant": "Ranges over all histories of calls.", "anchors": ["src/tdamapper/_common.py:ParamsMixin.set_params", "src/tdamapper/learn.py:MapperAlgorithm.fit", "src/tdamapper/learn.py:MapperClustering.fit", "src/tdamapper/_common.py:clone"]}
{"id": "C99", "title": "Loading data in the web app", "statement": "In every history of the page the stored data and labels are those of the last file uploaded or example loaded, repaired by fix_data. Pressing Load data without a known choice or without data changes nothing; otherwise the columns of the data, all included, are offered for exclusion and graph and figure stay. With CSV selected, Load data gives the data of the uploaded file. (It does not if an example was loaded since the upload: the data of the example is kept.)", "quantifier": "all histories of events, all files and examples", "why_tests_cant": "All histories.", "anchors": ["src/tdamapper/app.py:App.load_data", "src/tdamapper/app.py:App.upload_file"]}
{"id": "C100", "title": "Noise in the lens and nearby radii", "statement": "The Mapper graph and its connected components stay the same under small changes. With BallCover, if each row of the lens is moved by at most e, unless the distance of two rows is within 2e of the radius; and if the radius is changed, unless the distance of two rows is at least the smaller radius and less than the larger. With KNNCover, if each row is moved by at most e, unless the distances of a row from two others differ by 4e or less. With CubicalCover, if coordinates are moved by at most e which are further than e from the ends of all cells and boxes. For balls the margin is needed: if a distance equals the radius, noise of any size changes the charts.", "quantifier": "all datasets, lenses and movements, all parameters, trees and random draws", "why_tests_cant": "Compares runs on every dataset and all datasets near it.", "anchors": ["src/tdamapper/cover.py:BallCover.apply", "src/tdamapper/cover.py:KNNCover.apply", "src/tdamapper/cover.py:CubicalCover.apply", "src/tdamapper/core.py:mapper_graph", "src/tdamapper/core.py:mapper_connected_components"]}
{"id": "C101", "title": "Comparisons made by quickselect and while building trees", "statement": "quickselect on m entries makes at most m(m-1) comparisons, and building a vantage point tree on n entries at most 4n^2. The bounds cannot be improved to less than quadratic ones: if no entry is less than another, quickselect makes (m-1)+(m-2)+... comparisons, one summand for each position from the start up to the selected one; and if all distances between the entries are equal, as for copies of one row, building a tree with more entries than a leaf holds makes at least n(n-2)/4 comparisons, however few calls of the distance function it makes.", "quantifier": "all arrays, ranges and positions; all data, distance functions, parameters and random draws, NaN included", "why_tests_cant": "Bounds the work on every input, and from below on every input with equal entries.", "anchors": ["src/tdamapper/utils/quickselect.py:quickselect", "src/tdamapper/utils/vptree_flat/builder.py:Builder.build", "src/tdamapper/utils/vptree_hier/builder.py:Builder.build"]}
{"id": "C102", "title": "Comparisons made by a MaxHeap", "statement": "add on a heap of n items makes at most floor(log2(n+1))+1 comparisons of keys and pop at most 2 floor(log2(n-1)), whatever the comparisons answer, so that m calls on a fresh heap make at most m(2 floor(log2 m)+1).", "quantifier": "all heaps, keys, answers of comparisons (also contradictory ones) and histories of calls", "why_tests_cant": "Bounds the work for every heap and every behaviour of the keys.", "anchors": ["src/tdamapper/utils/heap.py:MaxHeap.add", "src/tdamapper/utils/heap.py:MaxHeap.pop"]}
{"id": "C103", "title": "What a MaxHeap holds after a comparison raised", "statement": "Whatever the comparisons of keys answer or raise, add and pop terminate and raise nothing but what a comparison raised. The item given to add is in the heap afterwards even if add raises; pop removes its item even if it raises, and the client then does not get it. So after every history of calls the items added are those in the heap, those returned, and one for each pop that raised. The heap need not be a priority queue any more after an exception: a later pop may return an item that is not the largest.", "quantifier": "all heaps, keys, points at which comparisons raise, and histories of calls whose exceptions are caught", "why_tests_cant": "Ranges over every comparison at which an exception may occur.", "anchors": ["src/tdamapper/utils/heap.py:MaxHeap.add", "src/tdamapper/utils/heap.py:MaxHeap.pop", "src/tdamapper/utils/heap.py:_HeapNode.__lt__"]}
{"id": "C104", "title": "Log records of failing clusterings", "statement": "With failsafe and verbose set, computing a Mapper graph logs one warning for each chart on which the clustering raised ValueError, in the order of the charts and with the message of the exception, and no other; if the computation raises, those of the charts before. Without verbose it logs nothing. Logging changes neither the graph nor the exception.", "quantifier": "all datasets, covers and clusterings, run one job after another", "why_tests_cant": "Ranges over every clustering and every subset of charts on which it may fail.", "anchors": ["src/tdamapper/core.py:FailSafeClustering.fit", "src/tdamapper/core.py:mapper_labels", "src/tdamapper/learn.py:MapperAlgorithm.fit"]}
{"id": "C105", "title": "The last request wins in the web app", "statement": "Once nothing is pending, the stored graph and lens values are the result of the last press of Run Mapper, the figure shown is one of them, and after a press of Redraw it has the settings at that time. (This holds if the computations end in the order in which they were requested. Otherwise it does not: the result that arrives last is kept, and the figure can be one of a graph that is no longer stored.)", "quantifier": "all pages, with any computations pending, and all histories of events after the press", "why_tests_cant": "Ranges over all schedules of the pending computations.", "anchors": ["src/tdamapper/app.py:App.async_run_mapper", "src/tdamapper/app.py:App.async_draw_mapper"]}
{"id": "C106", "title": "Near nodes hold near values of the lens; equal rows are treated alike", "statement": "Whatever the clustering, two rows of one node have near values of the lens, and so have rows of nodes joined by few edges: with BallCover of radius r, rows of nodes n edges apart are at distance less than 2(n+1)r; with CubicalCover they differ in each column that is not constant by less than n+1 times the width of its intervals. With the trivial clustering, rows with equal values of the lens are in the same nodes. (For KNNCover neither holds: a node can hold rows any distance apart, and of two equal rows one can be in nodes and the other in none.)", "quantifier": "all datasets, lenses, parameters, clusterings that return, and numbers of edges", "why_tests_cant": "Ranges over all datasets and over paths of every length.", "anchors": ["src/tdamapper/core.py:mapper_graph", "src/tdamapper/cover.py:BallCover.apply", "src/tdamapper/cover.py:CubicalCover.apply", "src/tdamapper/cover.py:KNNCover.apply"]}
{"id": "C107", "title": "Interrupted calls of a UnionFind", "statement": "If calls of find and union are interrupted (KeyboardInterrupt, an exception from a signal handler) between any two of their accesses to the object, the object stays usable: find still answers for every element, finished unions stay in force, and each interrupted union has either happened or not. Only the bound on the depth of the trees is lost.", "quantifier": "all histories of calls, each interrupted at any access or run to its end", "why_tests_cant": "Ranges over every interruption point of every call in every history.", "anchors": ["src/tdamapper/utils/unionfind.py:UnionFind.find", "src/tdamapper/utils/unionfind.py:UnionFind.union"]}
{"id": "C108", "title": "Calls of a UnionFind from several threads", "statement": "Several threads may call methods of one UnionFind at a time: every call returns the answer it would give in some order of the calls, and later calls see all unions. (This holds if all of them call find: the answers are those of calls alone, each thread needs at most 4 log2 n + 1 accesses, and nothing changes for later calls. It does not hold as soon as one thread calls union: a union can get lost, and a search can run forever, even if only one thread unites and the other one only searches.)", "quantifier": "all reachable objects, numbers of threads, elements and schedules of their accesses", "why_tests_cant": "Ranges over all interleavings of any number of threads.", "anchors": ["src/tdamapper/utils/unionfind.py:UnionFind.find", "src/tdamapper/utils/unionfind.py:UnionFind.union"]}
{"id": "C109", "title": "The warning about overlap fractions above one half", "statement": "Fitting a cubical cover on data with an overlap fraction above one half, by fit or by asking for the first chart of apply, warns the user; nothing else warns, in particular not overlap_frac=None. The warning does not change any answer: with all filters of Python's warnings module that do not turn warnings into errors, searches and charts are the same. If warnings are errors, such a call raises UserWarning, the iteration ends, and a cover that was never fitted still answers no search. (With the filter 'always' every such call shows a warning. With the filters Python has at the start only the first one does, until the filters are changed, as text and line of the warning are always the same.)", "quantifier": "all histories of any number of cubical covers, with parameters, data, generators and filters changed at any time", "why_tests_cant": "Ranges over all histories of a process.", "anchors": ["src/tdamapper/cover.py:BaseCubicalCover.fit", "src/tdamapper/_common.py:warn_user"]}
{"id": "C110", "title": "Illegal values of parameters are reported", "statement": "A program that computes a Mapper graph with an illegal value of a parameter raises an exception when it runs: an unknown kind, metric or algorithm and an overlap fraction that is not positive raise ValueError, an overlap fraction of 1 raises ZeroDivisionError. (It does not hold for all parameters: any string is accepted for pivoting, and with a radius that is not positive or an overlap fraction above 1 the graph silently has no nodes.)", "quantifier": "all datasets, lenses, states of the process, and calls of the constructors of covers with arguments of the right types", "why_tests_cant": "Ranges over every string that is not a legal value and over all data.", "anchors": ["src/tdamapper/cover.py:BallCover.fit", "src/tdamapper/cover.py:KNNCover.fit", "src/tdamapper/cover.py:BaseCubicalCover.fit", "src/tdamapper/cover.py:CubicalCover.apply", "src/tdamapper/utils/metrics.py:get_metric", "src/tdamapper/utils/vptree.py:VPTree"]}
{"id": "C111", "title": "Wrong arguments of plots are reported", "statement": "Arguments of plots that cannot be used raise an exception: colours with no or more than two dimensions, titles, sizes and colour scales of other types, and a list with another number of titles than there are columns raise ValueError; empty lists, and colours without a row for a point of some node, raise IndexError; an unknown colour scale raises the error of Plotly or Matplotlib. A failing update for an argument of the wrong kind leaves the figure as it was, and a failing plot_pyvis writes nothing. (It does not hold for colours with too many rows: the further rows are silently ignored.)", "quantifier": "all graphs with positions, arguments, palettes and aggregations, and all three backends", "why_tests_cant": "Ranges over all graphs and arguments, in particular over the position of the point without a row.", "anchors": ["src/tdamapper/plot_backends/plot_plotly.py:plot_plotly", "src/tdamapper/plot_backends/plot_plotly.py:plot_plotly_update", "src/tdamapper/plot_backends/plot_plotly.py:_to_titles", "src/tdamapper/plot_backends/plot_matplotlib.py:plot_matplotlib", "src/tdamapper/plot_backends/plot_pyvis.py:plot_pyvis", "src/tdamapper/core.py:aggregate_graph"]}
{"id": "C112", "title": "Parts of the data that are far apart do not affect one another", "statement": "If some rows are far from all the other rows, then the Mapper graph of these rows alone is what the Mapper graph of all rows is on them: the same nodes with the same rows, the same edges, no edge to a node of other rows and no node with rows of both kinds; and the connected components of these rows are the same and contain no other rows. (With BallCover, far means a distance of at least the radius. With KNNCover it holds if every row is nearer to all rows of its own group than to those of the other, both groups have at least `neighbors` rows and there are no ties. It does not hold with smaller groups, nor with cubical covers, whose hypercubes depend on the bounding box of all rows.)", "quantifier": "all datasets, lenses, choices of rows, metrics, trees and random draws of the two runs, and clusterings that always succeed and do not depend on the order of the points", "why_tests_cant": "Ranges over all data and all ways in which the rows of the two groups are mixed.", "anchors": ["src/tdamapper/core.py:mapper_graph", "src/tdamapper/core.py:mapper_connected_components", "src/tdamapper/core.py:proximity_net", "src/tdamapper/cover.py:BallCover.apply", "src/tdamapper/cover.py:KNNCover.apply", "src/tdamapper/cover.py:StandardCubicalCover.apply"]}
{"id": "C113", "title": "How large Mapper graphs can get", "statement": "The size of a Mapper graph is bounded in terms of the data. A row has at most as many labels as it is in charts, the sizes of the nodes add up to the numbers of labels, there are at most that many nodes, and a row with k labels accounts for at most k(k-1)/2 edges. There are at most as many charts as rows. Every row is in a bounded number of charts, so that the numbers of nodes and of edges grow at most in proportion to the number of rows: let s be the number of columns of the lens that are not constant and K be 1/(1 - overlap_frac) rounded up, which is 2 for overlaps up to one half; then with cubical covers there are at most n_intervals^s charts, a row is in at most K^s of them, and without clustering a node has at most (2K-1)^s - 1 neighbours. (With BallCover and KNNCover a row can be in all charts, and the number of edges can grow with the square of the number of rows; the sizes of the nodes add up to at most k times the number of rows with KNNCover.)", "quantifier": "all datasets, lenses, parameters, metrics, trees, random draws and clusterings that always succeed", "why_tests_cant": "Ranges over all data of all sizes.", "anchors": ["src/tdamapper/core.py:mapper_labels", "src/tdamapper/core.py:mapper_graph", "src/tdamapper/core.py:proximity_net", "src/tdamapper/cover.py:BallCover.apply", "src/tdamapper/cover.py:KNNCover.apply", "src/tdamapper/cover.py:StandardCubicalCover.apply", "src/tdamapper/cover.py:ProximityCubicalCover.apply"]}
{"id": "C114", "title": "Rows that are close together end up in one component", "statement": "With the trivial clustering, rows of the lens that are close to each other share a node of the Mapper graph, so that rows linked by a chain of short steps are in one connected component and get the same label from MapperClustering, and the graph of data without gaps is connected. (With the standard cubical cover this holds for rows that differ in every column by less than half of the length in which adjacent intervals overlap: every row has a chart that contains all these rows. With a lens of one column it holds for both cubical algorithms and steps shorter than the overlap and not longer than the gap between intervals that are not adjacent. It does not hold for any length of steps with BallCover, with the default cubical algorithm and an overlap fraction of one half, or with that algorithm and several columns; nor with KNNCover.)", "quantifier": "all datasets, lenses, parameters, trees and random draws", "why_tests_cant": "Ranges over all data and over chains of rows of any length; the violations are for steps of every length.", "anchors": ["src/tdamapper/core.py:mapper_graph", "src/tdamapper/core.py:mapper_connected_components", "src/tdamapper/core.py:proximity_net", "src/tdamapper/cover.py:StandardCubicalCover.apply", "src/tdamapper/cover.py:ProximityCubicalCover.apply", "src/tdamapper/cover.py:BallCover.apply", "src/tdamapper/cover.py:KNNCover.apply", "src/tdamapper/learn.py:MapperClustering.fit"]}
{"id": "C115", "title": "The older web app shows what its controls say", "statement": "Whatever pages the server has shown before, a page of the Streamlit app shows the dataset selected in its menus (the named example, the OpenML dataset of that name, or the uploaded file) and the graph of the selected estimator for these data and the selected lens. The lens is reduced to the number of columns asked for unless the data have fewer columns, and data and lens are scaled exactly if their boxes are ticked. Without an upload, or if loading raises ValueError, a message is shown instead. The slider of the figure offers the node sizes 0, 0.25, ..., 2 and is on 1, which is what is drawn. If two pages have graphs with the same nodes and edges, listed in any order, and the same layout settings, the later page draws every node where the earlier one did.", "quantifier": "all datasets, controls, histories of pages, and behaviours of the libraries under the app", "why_tests_cant": "Ranges over every history of pages on a server with shared caches, and over all data and estimators.", "anchors": ["app/streamlit_app.py:load_data", "app/streamlit_app.py:data_input_section", "app/streamlit_app.py:mapper_lens_input_section", "app/streamlit_app.py:compute_mapper", "app/streamlit_app.py:_encode_graph", "app/streamlit_app.py:compute_mapper_plot", "app/streamlit_app.py:compute_mapper_fig", "app/streamlit_app.py:main"]}
{"id": "C116", "title": "The downloaded graph is the whole graph", "statement": "In the Streamlit app every graph that Mapper returned can be downloaded. The file lists its nodes with size and members, and the neighbours of each node. It can be read in one way only, and graphs with the same file are equal. The file offered beside a page is that of the graph which the data and the estimator chosen give, whatever pages were shown before.", "quantifier": "all graphs that Mapper returns for any data, cover and clustering, and all histories of pages", "why_tests_cant": "Ranges over all graphs, with any labels, sizes and numbers of nodes, and over all histories.", "anchors": ["app/streamlit_app.py:mapper_download_button", "src/tdamapper/core.py:mapper_graph"]}
{"id": "C117", "title": "The order of the parameters in set_params does not matter", "statement": "obj.set_params(**D) does the same for every order of D, and get_params() then returns the values of D; in particular, a call that gives obj another estimator and sets parameters of it sets those of the new one, even if they are given first. a.set_params(**b.get_params()), in any order, gives a the parameters of b and changes no other object. (Proved if the parameters with a double underscore have plain values. It does not hold for an estimator two levels down: a call that replaces it and sets one of its parameters changes the old one instead of the new one if the parameter is given first.)", "quantifier": "all objects nested to any depth, all parameter dictionaries and all their orders", "why_tests_cant": "Ranges over all permutations of dictionaries of any size and all object graphs.", "anchors": ["src/tdamapper/_common.py:ParamsMixin.set_params", "src/tdamapper/_common.py:ParamsMixin.get_params"]}
{"id": "C118", "title": "Every action in the web app reports its outcome", "statement": "Run Mapper and Redraw either start a computation with a notification of its own that says it is going on, or say at once why not and change nothing. When Mapper ends, its notification says that it completed exactly if the page has the new graph, and otherwise that it failed; when a figure is drawn it is shown and its notification says so; no other notification changes. So a notification says that something is going on exactly if that computation has not ended, whatever is clicked meanwhile. Load data and uploads give one message, which tells whether data are loaded. (It does not hold for figures that raise: their notification says for ever that the figure is being drawn, and if Run Mapper started it, that Mapper failed although its graph is stored. A file that cannot be read is not reported.)", "quantifier": "all histories of clicks, changed controls, uploads and ends of computations in any order, and all behaviours of the libraries under the app", "why_tests_cant": "Ranges over all interleavings of handlers that wait for computations, of any length.", "anchors": ["src/tdamapper/app.py:App.async_run_mapper", "src/tdamapper/app.py:App.async_draw_mapper", "src/tdamapper/app.py:App.notification_running_start", "src/tdamapper/app.py:App.notification_running_stop", "src/tdamapper/app.py:App.load_data", "src/tdamapper/app.py:App.upload_file"]}
{"id": "C119", "title": "An interrupted fit leaves the estimator usable", "statement": "If fit of MapperAlgorithm or MapperClustering is interrupted at any point (Ctrl-C), then all estimators have the parameters they had, no object but the fitted estimator has changed (and those that its clustering shares with the clones made of it), and the result graph_ or labels_ is the one from before or the whole new one, never a part of it. After any history of calls of which any are interrupted, the next fit or fit_transform gives what it would have given at the start, and the result is that of the last call that came to its end or of one that was interrupted later. (One thing does not hold: after an interrupt between two assignments the new result is there with the n_features_in_ of the old one.)", "quantifier": "all estimators, covers and clusterings that keep the scikit-learn contract, all data, all points of interruption and all histories of calls", "why_tests_cant": "Ranges over every point at which a call can stop and all histories of such calls.", "anchors": ["src/tdamapper/learn.py:MapperAlgorithm.fit", "src/tdamapper/learn.py:MapperClustering.fit", "src/tdamapper/core.py:FailSafeClustering.fit", "src/tdamapper/_common.py:clone"]}
{"id": "C120", "title": "Estimators can be fitted in several threads at the same time", "statement": "If several threads call fit, each of its own MapperAlgorithm or MapperClustering, which may use the same cover and the same clustering objects, then under every schedule each call returns or raises what it would alone, and leaves the graph or labels and n_features_in_ that it would leave alone. No thread waits for another one, no schedule goes on forever, parameters never change, and shared covers and clusterings are as they were at every moment. (It does not hold if two threads fit the same estimator, which can end with the graph of one call and the number of features of the other; nor for estimators that share a FailSafeClustering around an estimator, which can get graphs in which points are missing.)", "quantifier": "any number of threads and calls, all data, all schedules, and all covers and clusterings that keep the scikit-learn contract", "why_tests_cant": "Ranges over all interleavings of the steps of any number of threads.", "anchors": ["src/tdamapper/learn.py:MapperAlgorithm.fit", "src/tdamapper/learn.py:MapperClustering.fit", "src/tdamapper/core.py:FailSafeClustering.fit", "src/tdamapper/core.py:mapper_labels", "src/tdamapper/_common.py:clone"]}
{"id": "C121", "title": "Trees and covers see the points only through the distances", "statement": "If two datasets have the same distances between corresponding rows, then BallCover and KNNCover with the same parameters and the same random draws give exactly the same charts, in the same order and with the indices in the same order, or raise the same exception; and so Mapper gives the same labels, graph and connected components. The same holds if the distances, the radius and the leaf radius are all in another unit; with floating-point numbers, in a unit that differs by a power of two. A matrix of precomputed distances may be used instead of the data, with the row numbers as data. Ball and nearest-neighbour searches in a VPTree on the images of the points find the images of the points found before. The distances may be anything: tied, asymmetric, rounded, or no metric at all.", "quantifier": "all datasets, all metrics and functions that are none, all parameters of trees and covers, all random draws", "why_tests_cant": "Ranges over all pairs of datasets of any size and type and all functions as metrics.", "anchors": ["src/tdamapper/utils/vptree_flat/vptree.py:VPTree", "src/tdamapper/utils/vptree_hier/vptree.py:VPTree", "src/tdamapper/utils/vptree.py:VPTree", "src/tdamapper/cover.py:BallCover", "src/tdamapper/cover.py:KNNCover", "src/tdamapper/core.py:mapper_graph"]}
{"id": "C122", "title": "Units that differ by powers of two give exactly the same cubical charts", "statement": "With floating-point arithmetic, multiplying any columns of the data by powers of two, each by its own, leaves all charts of the cubical covers exactly as they were, in the same order and with the indices in the same order, so that Mapper gives the same labels, graph and connected components. Searching for a row in the new units finds what searching for it in the old units found. (The entries of a column whose unit changes must differ by more than the machine epsilon, before and after. Adding a number to a column is another matter: it changes charts even if no entry is rounded by it.)", "quantifier": "all tables of any size, all precisions, all powers of two for each column, all parameters and both algorithms", "why_tests_cant": "Ranges over all tables of floating-point numbers, where one rounding error would suffice to change a chart.", "anchors": ["src/tdamapper/cover.py:BaseCubicalCover", "src/tdamapper/cover.py:ProximityCubicalCover", "src/tdamapper/cover.py:StandardCubicalCover", "src/tdamapper/utils/metrics.py:chebyshev"]}
{"id": "C123", "title": "The signs of the columns of the lens do not matter", "statement": "Reversing the signs of any columns of the lens (the sign of a principal component is arbitrary) leaves the charts, the Mapper graph and the connected components as they are: for the cubical covers of both algorithms, and for BallCover and KNNCover with any metric of the library, where even the order of charts and indices is the same for the same random draws. No metric of the library depends on the signs of coordinates. (It does not hold for the cubical covers if an entry is exactly where two intervals meet: the interval belongs to its left end, and the graphs can have different numbers of nodes.)", "quantifier": "all lenses of any size, all sets of columns, all parameters of covers, trees and metrics, all clusterings", "why_tests_cant": "Ranges over all tables of numbers and all sets of columns.", "anchors": ["src/tdamapper/cover.py:CubicalCover", "src/tdamapper/cover.py:BaseCubicalCover", "src/tdamapper/cover.py:BallCover", "src/tdamapper/cover.py:KNNCover", "src/tdamapper/utils/metrics.py:get_metric"]}
{"id": "C124", "title": "Rows that are repeated change nothing but the nodes' sizes", "statement": "Repeating rows of the data, each any number of times and anywhere after its first occurrence (so that the rows first appear in the same order), leaves the charts of TrivialCover, BallCover and the cubical covers, the Mapper graph and the connected components as they are, except that each copy of a row is in the charts, nodes and component of the row: the nodes correspond one to one, with the same edges, and ids lists all the copies of the points it listed before. The clustering has to find the same clusters however often it is given each point, as the trivial clustering does. (It does not hold for KNNCover, because copies take the places of other neighbours. Copies that come before earlier rows amount to a change of the order of rows, and can change the graph of BallCover.)", "quantifier": "all datasets, all numbers and positions of copies, all parameters of covers and trees, all random draws, all such clusterings", "why_tests_cant": "Ranges over all datasets and all ways to repeat their rows.", "anchors": ["src/tdamapper/core.py:proximity_net", "src/tdamapper/core.py:mapper_graph", "src/tdamapper/core.py:mapper_connected_components", "src/tdamapper/core.py:TrivialCover", "src/tdamapper/cover.py:BallCover", "src/tdamapper/cover.py:CubicalCover", "src/tdamapper/cover.py:KNNCover"]}
{"id": "C125", "title": "The numbers that a clustering gives to its clusters do not matter", "statement": "Two clusterings that find the same clusters and the same noise in every chart, but number the clusters differently - in another order, with gaps, starting anywhere, differently in each job, with any negative numbers for noise - give the same Mapper graph up to the names of the nodes, with the same size, ids and edges, and the same connected components. If one of them raises, so does the other, with the same exception. It makes no difference to wrap both in FailSafeClustering.", "quantifier": "all data, covers with valid charts and clusterings, all numberings of clusters", "why_tests_cant": "Ranges over all clusterings and all numberings, which can differ in every chart.", "anchors": ["src/tdamapper/core.py:mapper_labels", "src/tdamapper/core.py:mapper_graph", "src/tdamapper/core.py:mapper_connected_components", "src/tdamapper/core.py:FailSafeClustering"]}
{"id": "C126", "title": "An estimator can be read while another thread fits it", "statement": "While threads fit MapperAlgorithms and MapperClusterings, no estimator in two threads, whoever reads graph_ (or labels_) of one of them sees, at every moment of every schedule, the one from before, or the whole graph (or all the labels) of the data it is being fitted on: never None, an empty or a half-built graph. It changes only once: a reader who has seen the new one never sees the old one again. The number of features is assigned one step later than the graph: in between, the two do not belong together.", "quantifier": "all estimators, data, covers and clusterings without a FailSafeClustering around an estimator, all numbers of threads, all schedules, all moments", "why_tests_cant": "Ranges over all interleavings of the steps of all threads and all moments at which a reader looks; tests see the few schedules that happen.", "anchors": ["src/tdamapper/learn.py:MapperAlgorithm.fit", "src/tdamapper/learn.py:MapperClustering.fit", "src/tdamapper/_common.py:EstimatorMixin._set_n_features_in"]}
{"id": "C127", "title": "Coarser clusterings give coarser graphs", "statement": "Replace the clustering by one that puts together at least what the first puts together in every chart: the nodes of the first Mapper graph go to nodes of the second that hold their points, edges go to edges, points in one connected component stay in one, and no point becomes noise. In particular the graph with any clustering lies over the graph without one. If the cover also gets coarser, every chart lying in a new one, the same holds (with edges going to edges or to one node) as long as points put together stay together among more points: so for single linkage with a threshold, on standard cubical covers with fewer intervals (a divisor), more overlap and a larger threshold. For clusterings that look for a given number of clusters it fails.", "quantifier": "all datasets, lenses, covers, clusterings, thresholds, overlaps and numbers of intervals", "why_tests_cant": "Compares two runs for all inputs and all pairs of clusterings of which one is coarser.", "anchors": ["src/tdamapper/core.py:mapper_labels", "src/tdamapper/core.py:mapper_graph", "src/tdamapper/core.py:mapper_connected_components", "src/tdamapper/cover.py:StandardCubicalCover"]}
{"id": "C128", "title": "How a cover lists its charts does not matter", "statement": "If two covers give the same charts, in whatever order and with the points of each in whatever order, the Mapper graphs are the same up to the names of the nodes, and so are the connected components (for clusterings that depend neither on the order of the points nor on the number of the job). Charts that are listed again, or that are parts of other charts, do not affect the connected components, as long as points that the clustering puts together stay together among more points. A chart listed twice appears in the graph as twins: two nodes with the same points, joined to each other and to the same other nodes.", "quantifier": "all datasets, lists of charts, orders, clusterings", "why_tests_cant": "Compares two runs for all lists of charts and all rearrangements of them; users write their own covers.", "anchors": ["src/tdamapper/core.py:mapper_labels", "src/tdamapper/core.py:mapper_graph", "src/tdamapper/core.py:mapper_connected_components", "src/tdamapper/protocols.py:Cover"]}
{"id": "C129", "title": "Single linkage in the charts and single linkage of the data", "statement": "With single linkage (with a threshold on the distance) as the clustering, on any cover of all points: no point is noise, and Mapper never joins what single linkage of the whole dataset keeps apart. If any two points within the threshold are in a common chart, the connected components are exactly the single linkage clusters of the dataset; this is so for standard cubical covers if the lens takes points within the threshold to rows that differ by less than half the overlap of adjacent intervals. With BallCover the components can be smaller.", "quantifier": "all datasets, distances, thresholds, lenses, covers of all points, single linkage clusterings", "why_tests_cant": "Compares the result with a clustering of the whole dataset, for all inputs; tests compare it on a few datasets.", "anchors": ["src/tdamapper/core.py:mapper_connected_components", "src/tdamapper/core.py:mapper_labels", "src/tdamapper/cover.py:StandardCubicalCover", "src/tdamapper/cover.py:BallCover"]}
{"id": "C130", "title": "Jobs that raise an exception", "statement": "With any number of workers, at every moment of every schedule of the clustering jobs: a job that has ended gave the labels, or raised the exception, that the clustering as a function gives on the points of its own chart. So any exception a user can see is one that the clustering raises on one of the charts; if it fails on some chart, no result is returned; if it fails on no chart, no job ever fails and all charts are clustered. Whatever fails, the clustering passed in, and every other object that existed, stays as it was. No schedule goes on forever, and the jobs can always be run until they stop.", "quantifier": "all datasets, lists of charts, clusterings that share no fitted object with their clones, numbers of workers, schedules, moments of a schedule (ending: also all other clusterings)", "why_tests_cant": "Ranges over all schedules and all moments of them, including those in which several jobs fail at different times; a test sees one schedule, and cannot force another.", "anchors": ["src/tdamapper/core.py:mapper_labels"]}
{"id": "C131", "title": "Graphs over a lens with one column", "statement": "For every cover and clustering, the Mapper graph lies over the cover: the rows of a node are in one chart, nodes of one chart have no row in common, and joined nodes are of different charts that share a row. With cubical covers joined nodes have different cells, less than 1/(1 - overlap_frac), rounded up, apart in each column. If one column of the lens is not constant and overlap_frac is at most one half, or with BallCover on points of a line, nodes have levels (their interval, or the position of their centre among the centres) and edges lead only to the next level, up or down: closed walks have an even number of edges, so that there are no triangles, and a connected component fills all levels between any two of its levels. (With larger overlaps, and with KNNCover, there can be triangles.)", "quantifier": "all datasets, lenses, covers, clusterings, parameters", "why_tests_cant": "Ranges over all graphs the library can produce; users read the graph of a one-column lens as a Reeb graph.", "anchors": ["src/tdamapper/core.py:mapper_graph", "src/tdamapper/core.py:mapper_labels", "src/tdamapper/cover.py:CubicalCover", "src/tdamapper/cover.py:BallCover", "src/tdamapper/cover.py:KNNCover"]}
{"id": "C132", "title": "With the trivial clustering, graphs over a line consist of paths", "statement": "If one column of the lens is not constant and overlap_frac is at most one half, the Mapper graph of either cubical algorithm with TrivialClustering consists of paths: the nodes have different levels (the number of their interval), the rows of a node are exactly those in its interval, and edges lead only to the next level. The same holds with BallCover on points of a line, where nodes are lined up by their centres, and for MapperAlgorithm.fit_transform without a clustering, where the default overlap_frac is allowed too. So, whatever the data, a node has at most two neighbours, there are no cycles, and a connected component has one node on each level from its lowest to its highest, each joined to the next. Branches and cycles come from the clustering: with a clustering that splits an interval the graph can be a cycle.", "quantifier": "all datasets, one-column lenses, parameters, random draws", "why_tests_cant": "Ranges over all datasets and parameters; users conclude from a branch or a cycle in the graph that the clustering saw one in the data.", "anchors": ["src/tdamapper/core.py:mapper_graph", "src/tdamapper/core.py:TrivialClustering", "src/tdamapper/cover.py:CubicalCover", "src/tdamapper/cover.py:BallCover", "src/tdamapper/learn.py:MapperAlgorithm.fit_transform"]}
{"id": "C133", "title": "Graphs over a lens with one column, with floating-point numbers", "statement": "With floating-point numbers, both cubical covers and any clustering: if overlap_frac is at most one half, joined nodes have different cells that are neighbours (or the same) in each column, so that over a lens with one column edges lead only from an interval to the next one and there are no triangles; with TrivialClustering the graph consists of paths. (This holds if overlap_frac exceeds the rounding errors and is below one half by more than the rounding errors. With exactly one half, the rows 38, 41.625 and 45.25 and three intervals give a triangle in double precision.)", "quantifier": "all datasets, lenses, clusterings, parameters, and arithmetics with a relative rounding error of at most 1/64 (double precision is one)", "why_tests_cant": "Ranges over all datasets and all ways of rounding; the failures are at single values of the lens.", "anchors": ["src/tdamapper/core.py:mapper_graph", "src/tdamapper/cover.py:BaseCubicalCover", "src/tdamapper/cover.py:ProximityCubicalCover", "src/tdamapper/cover.py:StandardCubicalCover"]}
