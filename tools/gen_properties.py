#!/usr/bin/env python3
"""Regenerates /verif/properties.jsonl (source of truth for the property list)."""
import json, os
U="src/tdamapper/utils/"; S="src/tdamapper/"
P=[]
def p(id,title,statement,quantifier,why,anchors):
    P.append(dict(id=id,title=title,statement=statement,quantifier=quantifier,why_tests_cant=why,anchors=anchors))

p("C01","quickselect places the k-th order statistic",
"For every array of totally ordered values and every start <= k < end <= len, quickselect(data,start,end,k) terminates without an index error, and afterwards every element of [start,k) is <= data[k] and every element of [k,end) is >= data[k]; data[k] is thus the (k-start)-th smallest element of the range.",
"all arrays (any length, any repeated values), all start<=k<end<=len",
"Termination of the 'while higher != k+1' loop and the order postcondition depend on duplicates and on the pivot sequence; tests sample a handful of arrays.",
[U+"quickselect.py:_quickselect",U+"quickselect.py:_partition"])
p("C02","quickselect moves rows, never tears or loses them",
"quickselect only permutes positions inside [start,end), applies one and the same permutation to data and to both optional companion arrays, leaves everything outside the range untouched, and is a no-op when k is outside [start,end).",
"all arrays, companion arrays present or absent, all start,end,k with end<=len",
"A torn row (distance swapped, index not) shows up only for particular pivot sequences.",
[U+"quickselect.py:_swap_all",U+"quickselect.py:_quickselect",U+"quickselect.py:swap_all"])
p("C03","MaxHeap is a priority queue",
"For every sequence of add/pop/top/len calls on a fresh MaxHeap, the heap behaves like a multiset of (key,value) pairs: len is the number of stored pairs, top and pop return a stored pair of maximal key (None when empty), pop removes exactly that pair, iteration yields exactly the stored pairs.",
"all operation sequences of any length over any linearly ordered keys",
"Heap-order bugs appear at particular sizes and key patterns.",
[U+"heap.py:MaxHeap"])
p("C04","Draining a MaxHeap sorts",
"Adding any list of pairs to a fresh MaxHeap and popping until None yields exactly those pairs, with keys in non-increasing order, in exactly as many pops as adds.",
"all finite lists of key/value pairs",
"Every size and duplicate pattern matters.",
[U+"heap.py:MaxHeap.add",U+"heap.py:MaxHeap.pop"])
p("C05","UnionFind computes the generated equivalence",
"For every sequence of union and find calls on elements given at construction, find(x)==find(y) holds exactly when x and y are connected by the equivalence generated by the pairs united so far.",
"all element sets, all operation histories of any length",
"Correctness depends on the whole history of unions interleaved with path compression.",
[U+"unionfind.py:UnionFind"])
p("C06","UnionFind.find terminates, answers with a class member, and is observationally pure",
"In every reachable state find(x) terminates for every known x and returns a member of x's class that is its own representative; performing it (path compression) changes no later find answer.",
"all reachable states, all known elements",
"Termination needs acyclicity of the parent table in every reachable state.",
[U+"unionfind.py:UnionFind.find"])
p("C07","UnionFind.union return value and unknown elements",
"union(x,y) returns the element that find(x) and find(y) both answer afterwards; find/union on an element not given at construction raises KeyError and no answer about known elements changes.",
"all reachable states, all elements known or not",
"Quantifies over all histories.",
[U+"unionfind.py:UnionFind.union",U+"unionfind.py:UnionFind.find"])
p("C08","UnionFind stays flat (union by size)",
"In every reachable state the number of parent steps from any element to its representative is at most log2 of the size of its class: 2^steps <= class size.",
"all histories of union/find over any number of elements",
"An asymptotic bound over all histories cannot be tested.",
[U+"unionfind.py:UnionFind.union"])
p("C09","Flat VPTree ball_search is exact",
"For every non-empty dataset, every pseudo-metric, every leaf_capacity>=1, leaf_radius, pivoting strategy and sequence of random draws, ball_search(q,eps,inclusive) on a flat tree terminates without error and returns, up to order, exactly the dataset entries x with d(q,x)<=eps (or <eps when not inclusive), each stored copy once.",
"all datasets, pseudo-metrics, parameters, random draws, query points, radii",
"Pruning errors need adversarial geometry, ties and duplicates.",
[U+"vptree_flat/ball_search.py:BallSearch",U+"vptree_flat/builder.py:Builder",U+"vptree.py:VPTree"])
p("C10","Hierarchical VPTree ball_search is exact",
"Same as C09 for kind='hierarchical', also for the empty dataset.",
"all datasets (also empty), pseudo-metrics, parameters, random draws, query points, radii",
"Pruning errors need adversarial geometry, ties and duplicates.",
[U+"vptree_hier/ball_search.py:BallSearch",U+"vptree_hier/builder.py:Builder",U+"vptree.py:VPTree"])
p("C11","Flat VPTree knn_search is exact",
"For every non-empty dataset, pseudo-metric, leaf_capacity>=1, leaf_radius, pivoting, random draws, query q and k>=0, knn_search(q,k) on a flat tree terminates without error and returns min(k,n) stored entries such that no entry left out is closer to q than a returned one.",
"all datasets, pseudo-metrics, parameters, random draws, query points, k",
"The pruning threshold interacts with the heap state and visiting order.",
[U+"vptree_flat/knn_search.py:KnnSearch",U+"heap.py:MaxHeap"])
p("C12","Hierarchical VPTree knn_search is exact",
"Same as C11 for kind='hierarchical', also for the empty dataset.",
"all datasets, pseudo-metrics, parameters, random draws, query points, k",
"The pruning threshold interacts with the heap state and visiting order.",
[U+"vptree_hier/knn_search.py:KnnSearch",U+"heap.py:MaxHeap"])
p("C13","VPTree construction terminates, loses nothing and has the vantage-point property",
"For every dataset, leaf_capacity>=1, leaf_radius, pivoting, random draws and any distance function, constructing either kind of tree terminates without an index error and stores each dataset entry exactly once; below each internal node the near half is within, and the far half at or beyond, the stored radius of the vantage point.",
"all datasets incl. empty, all parameters, any distance function",
"Build termination and array bookkeeping must hold for every size and split.",
[U+"vptree_flat/builder.py:Builder.build",U+"vptree_hier/builder.py:Builder.build"])
p("C14","Tree kind, pivoting and leaf parameters never change answers",
"For a pseudo-metric and a non-empty dataset, any two VPTrees on the same data (any kind, leaf_capacity>=1, leaf_radius, pivoting, random draws) return the same ball_search result up to order and knn_search results with the same sorted list of distances.",
"all pairs of configurations, datasets, queries",
"A relational property over pairs of configurations.",
[U+"vptree.py:VPTree"])
p("C15","Searching an empty VPTree",
"A search on a tree built over an empty dataset returns an empty list for both kinds. (False of the code: the flat kind raises IndexError; true for the hierarchical kind.)",
"all queries on empty trees, both kinds",
"The discrepancy is a boundary case tests skipped (tests only build the empty tree).",
[U+"vptree_flat/ball_search.py:BallSearch._search_iter",U+"vptree_flat/knn_search.py:KnnSearch._search_iter"])
p("C16","The documented preconditions of VPTree are necessary",
"leaf_capacity must be positive (with leaf_capacity=0 building a flat tree can loop forever) and the distance must satisfy the triangle inequality (otherwise ball_search can miss a point inside the ball).",
"existence of violating inputs; loop shown to diverge for every number of steps",
"Divergence is not observable by a terminating test.",
[U+"vptree_flat/builder.py:Builder._build_iter",U+"vptree.py:VPTree"])
p("C17","BallCover.search returns exactly the open ball",
"After BallCover.fit(X) on non-empty X with leaf_capacity>=1, search(x) returns, without repetition, exactly the indices i with d(x,X[i])<radius, for either kind, any leaf_radius, pivoting and random draws.",
"all datasets, pseudo-metrics, radii, parameters, query points",
"Inherits the universal quantification of C09/C10.",
[S+"cover.py:BallCover.search",S+"cover.py:BallCover.fit"])
p("C18","BallCover.apply is an r-net cover",
"For radius>0, BallCover.apply(X) yields non-empty repetition-free charts with valid indices, each equal to the open ball of a dataset point; every index is in at least one chart; the chosen centres are pairwise at distance >= radius.",
"all datasets incl. empty, pseudo-metrics, positive radii, parameters",
"Coverage must hold for every dataset.",
[S+"cover.py:BallCover.apply",S+"core.py:proximity_net"])
p("C19","KNNCover.search returns the k nearest indices",
"After KNNCover.fit(X) on non-empty X, search(x) returns min(neighbors,n) distinct valid indices such that no other index is strictly closer to x.",
"all datasets, pseudo-metrics, neighbors>=1, parameters, queries",
"Inherits C11/C12.",
[S+"cover.py:KNNCover.search"])
p("C20","KNNCover.apply covers every point",
"Every index of X is in at least one chart of KNNCover.apply(X). (False of the code when more than `neighbors` points coincide; proved when at most `neighbors` points are at distance 0 from each point.)",
"all datasets, pseudo-metrics, neighbors",
"Fails only on datasets with repeated points.",
[S+"cover.py:KNNCover.apply",S+"core.py:proximity_net"])
p("C21","Cubical covers use the documented open boxes",
"After fit with n_intervals=n>=1 and 0<overlap_frac=p<1, search(x) returns exactly the indices of the points lying, in every coordinate, in the open interval (a - delta/2, b + delta/2), where [a,b) is the grid cell of x (the range split in n equal cells, last cell closed), delta=p*w and w=(b-a)/(1-p); coordinates on which the dataset is constant impose no constraint on dataset points.",
"all non-empty datasets of any dimension, all n>=1, 0<p<1, all query points, all tree parameters",
"The unit test checks one integer grid in dimension 1.",
[S+"cover.py:BaseCubicalCover.search",S+"cover.py:BaseCubicalCover._phi",S+"cover.py:BaseCubicalCover.fit"])
p("C22","Cubical covers cover every point",
"For n_intervals>=1 and 0<overlap_frac<1, StandardCubicalCover, ProximityCubicalCover and CubicalCover (either algorithm) yield non-empty repetition-free charts of valid indices and every point is in at least one chart.",
"all datasets incl. empty, dimensions, n, p, tree parameters",
"Coverage must hold for every dataset.",
[S+"cover.py:StandardCubicalCover.apply",S+"cover.py:ProximityCubicalCover.apply",S+"cover.py:CubicalCover.apply"])
p("C23","overlap_frac has its documented geometric meaning",
"In each dimension the open intervals of adjacent cells overlap by exactly the fraction overlap_frac of their common width, and for overlap_frac<=0.5 intervals of non-adjacent cells are disjoint, so a point is in at most two intervals per dimension.",
"all n>=1, all 0<p<1 (disjointness for p<=1/2), all datasets and cells",
"A geometric identity over a continuum of parameters.",
[S+"cover.py:BaseCubicalCover.fit"])
p("C24","StandardCubicalCover yields all hypercubes intersecting the dataset",
"StandardCubicalCover.apply yields one chart for each hypercube of the grid that intersects the dataset. (False of the code: hypercubes met only in their overlap margin are omitted; proved: exactly one chart per grid cell containing a dataset point.)",
"all datasets, n, p",
"Tests use symmetric datasets that populate all cells.",
[S+"cover.py:StandardCubicalCover.apply",S+"cover.py:StandardCubicalCover._landmarks"])
p("C25","Proximity cubical charts are among the standard ones",
"Every chart of ProximityCubicalCover.apply(X) is, up to order, a chart of StandardCubicalCover.apply(X) with the same parameters; no grid cell gives two charts, so the proximity cover has at most as many charts.",
"all datasets, n>=1, 0<p<1",
"Relational over two algorithms.",
[S+"cover.py:ProximityCubicalCover",S+"cover.py:StandardCubicalCover"])
p("C26","Default overlap_frac",
"When overlap_frac is None and dim>=1 the value used lies in (0,1/3] (so no warning or error), and it makes the part of each grid cell overlapped by neighbouring hypercubes exactly half of the cell volume. (The docstring's 'half of each hypercube' is false when hypercube means the enlarged open box.)",
"all dimensions",
"Real-valued identity for every dimension.",
[S+"cover.py:BaseCubicalCover._get_overlap_frac",S+"cover.py:BaseCubicalCover.fit"])
p("C27","Cubical parameter validation",
"On non-empty data fit raises ValueError exactly when overlap_frac<=0; for 0<p<=0.5 it succeeds silently, for p>0.5 it warns; p=1 raises ZeroDivisionError; for p>1 the radius is negative and every search is empty, so nothing is covered.",
"all datasets and overlap_frac values",
"A continuum of parameter values.",
[S+"cover.py:BaseCubicalCover.fit"])
p("C28","CubicalCover delegates",
"CubicalCover(algorithm='proximity'|'standard').apply/search give the same result as the delegate class with the same parameters; any other algorithm string raises ValueError, on both fit and apply.",
"all algorithm strings, parameters, datasets",
"All strings.",
[S+"cover.py:CubicalCover"])
p("C29","proximity_net covers for any reflexive search",
"For any search object, proximity_net yields, in dataset order, exactly the non-empty results search(X[i]) of the indices i not contained in an earlier result; if search(X[i]) always contains i then every index is covered and no chart is wholly contained in the union of the earlier ones.",
"all search functions, all datasets",
"User-supplied search objects.",
[S+"core.py:proximity_net"])
p("C30","TrivialCover",
"TrivialCover.apply yields exactly one chart listing every index once in order, or nothing for an empty dataset.",
"all datasets",
"All sizes.",
[S+"core.py:TrivialCover.apply"])
p("C31","mapper_labels are strictly ascending per point",
"For every cover yielding repetition-free charts of valid indices and every clustering, mapper_labels returns one list per point of X, strictly ascending. (The docstring sentence 'if i<j the labels at position i are strictly less than those at position j' is false across points.)",
"all datasets, covers, clusterings",
"All covers and label assignments incl. non-contiguous and noise labels.",
[S+"core.py:mapper_labels"])
p("C32","mapper_labels encode (chart, cluster) faithfully",
"Two label occurrences are equal exactly when they come from the same chart and the same local cluster label: label l occurs at point i exactly when some chart c contains i with non-negative local label and l is that chart's offset plus the local label; label ranges of distinct charts are disjoint.",
"all datasets, covers, clusterings",
"Offset arithmetic must avoid collisions for every label assignment incl. gaps and all-noise charts.",
[S+"core.py:mapper_labels"])
p("C33","Noise and uncovered points",
"A point has an empty label list exactly when in every chart containing it its local label is negative (in particular if no chart contains it).",
"all datasets, covers, clusterings",
"All label assignments.",
[S+"core.py:mapper_labels",S+"core.py:mapper_connected_components"])
p("C34","mapper_graph nodes",
"The nodes of mapper_graph are exactly the labels occurring in mapper_labels; node attribute ids lists, ascending and without repetition, exactly the points carrying the label; size equals len(ids) and is >=1.",
"all datasets, covers (repetition-free charts), clusterings",
"All inputs.",
[S+"core.py:mapper_graph"])
p("C35","mapper_graph edges",
"Distinct nodes u,v are adjacent exactly when some point belongs to both (their ids intersect); adjacency is symmetric and there are no self-loops; no edge leads to a missing node.",
"all datasets, covers (repetition-free charts), clusterings",
"All inputs.",
[S+"core.py:mapper_graph"])
p("C36","mapper_connected_components agrees with the Mapper graph",
"mapper_connected_components returns one value per point: -1 exactly for points in no node; otherwise a node of mapper_graph lying in the connected component of the point's nodes, and two such points get equal values exactly when their nodes are in the same connected component of mapper_graph.",
"all datasets, covers, clusterings",
"Relates two independent algorithms over all inputs.",
[S+"core.py:mapper_connected_components",U+"unionfind.py:UnionFind"])
p("C37","n_jobs does not change results",
"For a deterministic clustering, mapper_labels returns the same result for every n_jobs and every interleaving of the clustering jobs. (False of the code when the clustering wraps another estimator, e.g. FailSafeClustering as installed by MapperAlgorithm by default: clone() shares the wrapped object between threads and two jobs can race; proved for clusterings without shared sub-objects and for one worker.)",
"all numbers of jobs, all interleavings of atomic steps",
"Races depend on thread schedules.",
[S+"core.py:mapper_labels",S+"core.py:FailSafeClustering.fit",S+"_common.py:clone"])
p("C38","FailSafeClustering never fails with ValueError",
"FailSafeClustering.fit(X) yields the wrapped clustering's labels when its fit succeeds, the all-zero labelling of X when it raises ValueError, and propagates any other exception; with clustering=None it labels everything 0.",
"all wrapped clusterings and datasets",
"All behaviours of user clusterings.",
[S+"core.py:FailSafeClustering.fit",S+"core.py:TrivialClustering.fit"])
p("C39","aggregate_graph",
"aggregate_graph(X,g,agg) has exactly the nodes of g as keys and maps each node to agg applied to the list of X values of the node's ids in ids order.",
"all graphs from mapper_graph, datasets, aggregation functions",
"All inputs.",
[S+"core.py:aggregate_graph"])
p("C40","With TrivialClustering the Mapper graph is the 1-skeleton of the nerve of the cover",
"With TrivialClustering, node k of mapper_graph is the k-th chart (ids = the chart's points) and nodes j,k are adjacent exactly when charts j and k share a point.",
"all datasets, covers with non-empty repetition-free charts",
"All covers.",
[S+"core.py:mapper_graph",S+"core.py:TrivialClustering"])
p("C41","Mismatched X and y lengths",
"If y is shorter than X the points beyond len(y) belong to no node (label -1 in mapper_connected_components); if the cover of y refers to an index beyond len(X) mapper_labels raises IndexError.",
"all datasets of different lengths",
"No length validation exists; the behaviour must be derived.",
[S+"core.py:mapper_labels",S+"_common.py:EstimatorMixin._validate_X_y"])
p("C42","MapperClustering and MapperAlgorithm compute the core functions",
"After a successful fit(X,y), MapperClustering.labels_ equals mapper_connected_components on the validated data and MapperAlgorithm.graph_ equals mapper_graph with the clustering wrapped failsafe when requested; defaults are TrivialCover/TrivialClustering and y=X; fit_transform returns graph_; a failing fit leaves the previous graph_/labels_ in place.",
"all parameters, datasets, histories of fit calls",
"Histories of fits and failures.",
[S+"learn.py:MapperClustering.fit",S+"learn.py:MapperAlgorithm.fit"])
p("C43","Input validation",
"For arrays of numbers, fit raises ValueError exactly for sparse, empty, one-dimensional X, complex data, or data with NaN or infinite entries, and no data with NaN or infinity reaches the cover or clustering. (Arrays of strings raise TypeError instead.)",
"all input arrays",
"All inputs.",
[S+"_common.py:EstimatorMixin._validate_X_y"])
p("C44","fit does not modify the user's cover and clustering",
"Fitting MapperAlgorithm/MapperClustering leaves the user's cover and clustering objects unmodified. (False of the code when the clustering is a FailSafeClustering around another estimator: clone() shares the wrapped object and it gets fitted; proved for all clusterings that wrap no such object, including MapperClustering.)",
"all object graphs and call histories",
"Aliasing depends on the object graph.",
[S+"_common.py:clone",S+"learn.py:MapperAlgorithm.fit"])
p("C45","clone returns an unfitted estimator with the same public parameters",
"clone(obj) is a new object of the same class, has the same get_params() as obj, carries none of obj's private or fitted attributes, and leaves obj's parameters unchanged.",
"all estimators whose parameters are the attributes set by their constructor, incl. nested estimators",
"All parameter assignments and nestings.",
[S+"_common.py:clone",S+"_common.py:ParamsMixin"])
p("C46","get_params/set_params round trip",
"set_params followed by get_params returns the values set for existing public parameters, also nested ones via outer__inner; unknown and private names are ignored and change nothing. (False of the code for names of methods, e.g. set_params(fit=5) replaces the method, and for names nested under a parameter that is no estimator, which raise AttributeError.)",
"all parameter dictionaries",
"All keys incl. underscores in odd places.",
[S+"_common.py:ParamsMixin.set_params",S+"_common.py:ParamsMixin.get_params"])
p("C47","Euclidean, Manhattan and Chebyshev are metrics",
"Each returned distance function is symmetric, zero exactly on equal vectors, non-negative and satisfies the triangle inequality (over exact reals).",
"all real vectors of any common dimension",
"A continuum of inputs.",
[U+"_metrics.py",U+"metrics.py:euclidean",U+"metrics.py:manhattan",U+"metrics.py:chebyshev"])
p("C48","minkowski(p)",
"minkowski(p) equals manhattan for p=1, euclidean for p=2, chebyshev for infinite p, and for every real p>=1 is a metric; for 0<p<1, which the function accepts, the triangle inequality fails. Every number is accepted: p=0 counts differing coordinates, negative p gives distance zero to distinct vectors sharing a coordinate, and p=-inf gives Chebyshev.",
"all p and all real vectors",
"A continuum of inputs.",
[U+"metrics.py:minkowski",U+"_metrics.py:minkowski"])
p("C49","cosine distance",
"On non-zero vectors cosine distance is symmetric, lies in [0,2], is zero exactly for vectors of the same direction, is invariant under positive scaling and satisfies the triangle inequality (over exact reals). On a zero vector the call raises ZeroDivisionError.",
"all non-zero real vectors",
"A continuum of inputs.",
[U+"_metrics.py:cosine",U+"metrics.py:cosine"])
p("C50","get_metric dispatch",
"get_metric returns a callable argument unchanged (ignoring keyword arguments), the named metric for each supported name, TypeError for superfluous or missing keyword arguments, and ValueError for any other string.",
"all strings, callables, keyword sets",
"All strings.",
[U+"metrics.py:get_metric"])
p("C51","Plot traces are aligned by node",
"In the Plotly figure the i-th marker position, size, colour and hover text all describe the i-th node of the graph, colours being the aggregate of the node's points; each edge contributes the positions of its two end nodes followed by a gap. The figure has the requested width, height, title and colour scale, and marker sizes scaled by the (middle) requested node size.",
"all graphs, positions, colours, dimensions 2 and 3",
"All graphs and node orders.",
[S+"plot_backends/plot_plotly.py:PlotlyPlot"])
p("C52","plot_plotly_update updates what is asked",
"plot_plotly_update changes exactly the parts for which arguments are given. (False of the code for title without colors: it always raises; and colors without agg are silently ignored.)",
"all subsets of arguments",
"All argument combinations.",
[S+"plot_backends/plot_plotly.py:plot_plotly_update",S+"plot_backends/plot_plotly.py:_to_titles"])
p("C53","MapperPlot assigns one position per node",
"For dim 2 or 3 and a layout engine that returns one coordinate tuple per vertex, MapperPlot.positions has exactly the graph's nodes as keys with dim coordinates; an unknown layout engine raises ValueError, and so does a negative seed with igraph.",
"all graphs, engines, dims, seeds",
"All graphs.",
[S+"plot.py:MapperPlot"])
p("C54","App configuration honours the user's settings",
"The MapperConfig built by the app carries each setting entered by the user, falling back to the default when it is empty. (False of the code: the two 'Scaling' switches never reach the config, and a value 0 such as seed 0 is replaced by the default.)",
"all UI states",
"All UI states.",
[S+"app.py:App.get_mapper_config"])
p("C55","App storage stays consistent",
"In every history of upload/load/run/redraw actions, a run that fails or finds no data leaves the stored graph unchanged, and drawing needs a stored graph. (The stronger 'the drawn graph was computed from the currently stored data' is false: loading new data and pressing Redraw draws the old graph over the new data.)",
"all action histories incl. data loads while a run is pending",
"All histories and interleavings of async handlers.",
[S+"app.py:App.load_data",S+"app.py:App.async_run_mapper",S+"app.py:App.async_draw_mapper"])
p("C56","fix_data",
"fix_data keeps exactly the numeric columns having some value, in order, keeps every present value, leaves no missing value (each is replaced by its column's mean), and is idempotent.",
"all tables with finite numeric entries",
"All tables.",
[S+"app.py:fix_data"])
p("C57","run_mapper decisions",
"run_mapper returns None exactly for empty data or an unknown cover or clustering type; an unknown lens falls back to a two-component PCA; excluded columns that do not exist are ignored; scaling flags scale lens and data independently and never affect the returned lens frame.",
"all configurations and tables",
"All configurations.",
[S+"app.py:run_mapper"])
p("C58","PyVis pages",
"plot_pyvis writes one page to the given path and changes no other file, and none if it raises. The network has one vertex per node, in order, at the node's position, and one edge per edge; each colour is taken from the colour scale at a position in [0,1] that grows with the node's colour, from the least (0) to the greatest (1); when nodes differ in size, marker sizes are 25*node_size*sqrt(size/largest) rounded, grow with the number of points and are at most 25*node_size rounded; when all nodes have the same size every marker has size 25 whatever node_size. The hover text gives colour and name of the node. (Its 'size' is the marker size, not the number of points.)",
"all graphs, positions, colour arrays, aggregations, node_size>=0, colour scales, paths and files",
"All graphs and values; a test cannot exclude that one marker or edge is missing or misplaced.",
[S+"plot_backends/plot_pyvis.py:_compute_net",S+"plot_backends/plot_pyvis.py:plot_pyvis"])
exec(open(os.path.join(os.path.dirname(__file__),"more_properties.py")).read()) if os.path.exists(os.path.join(os.path.dirname(__file__),"more_properties.py")) else None
with open("/verif/properties.jsonl","w") as f:
    for x in P: f.write(json.dumps(x)+"\n")
print(len(P))
