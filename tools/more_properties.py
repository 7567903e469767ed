p("C59","partition splits around a value",
"partition(data,start,end,p) returns h with everything in [start,h) < p and everything in [h,end) >= p, h-start being the number of elements below p; rows move together and only inside [start,end).",
"all arrays, bounds start<=end<=len, values p",
"All arrays and duplicate patterns.",
[U+"quickselect.py:partition",U+"quickselect.py:_partition"])
p("C60","Iterating a MaxHeap yields all its items",
"A for-loop over a heap yields every stored pair exactly once. (False for nested loops over the same heap, since the heap is its own single iterator; proved for loops that are not interrupted by another iteration.)",
"all heaps",
"Nested use is not tested.",
[U+"heap.py:MaxHeap.__iter__",U+"heap.py:MaxHeap.__next__"])
p("C61","UnionFind accepts any iterable",
"Elements given at construction can be united, whatever iterable supplied them. (False of the code for one-shot iterators such as generators: the constructor iterates twice, sizes stay empty, and uniting two different elements raises KeyError; for re-iterable arguments C05-C08 hold.)",
"all element lists and all pairs of different elements",
"Tests pass lists only.",
[U+"unionfind.py:UnionFind.__init__"])
p("C62","leaf_capacity bounds the size of a leaf",
"A leaf of a VPTree holds at most leaf_capacity points. (False of the code: flat leaves hold up to twice the capacity, and leaves of small radius can be larger; the bounds that do hold are proved for both kinds.)",
"all datasets, any distance function, all parameters with leaf_capacity>=1, all random draws, every leaf",
"Leaf sizes are internal and depend on the split of every range.",
[U+"vptree.py:VPTree",U+"vptree_flat/builder.py:Builder._build_iter",U+"vptree_hier/builder.py:Builder._build_rec"])
p("C63","Charts must be repetition-free",
"The Cover protocol does not ask charts to be repetition-free and mapper_graph does not check it: a cover listing an index twice makes a node count that point twice and be adjacent to itself, so the repetition-free hypothesis of C31-C36 is needed.",
"existential: one cover (the hypothesis of the universal properties C31-C36)",
"A necessity statement about a hypothesis over all covers.",
[S+"core.py:mapper_labels",S+"core.py:mapper_graph",S+"protocols.py:Cover"])
p("C64","Refitting a cover forgets earlier data",
"After any sequence of successful fits, fitting a cover on X leaves it as a fresh cover fitted on X; searching before any fit raises AttributeError. (False of the code for cubical covers and empty X: fit returns without touching the object, and search keeps answering with indices of the earlier dataset; proved for BallCover, KNNCover, and for cubical covers on non-empty X.)",
"all parameters, all histories of fits, all datasets",
"Ranges over unbounded histories of calls on one object.",
[S+"cover.py:BallCover.fit",S+"cover.py:KNNCover.fit",S+"cover.py:BaseCubicalCover.fit",S+"cover.py:BaseCubicalCover.search"])
p("C65","Searches are exact with every metric selected by name",
"A VPTree built with get_metric(name) answers ball and nearest-neighbour queries exactly, for euclidean, manhattan, chebyshev and minkowski (p>=1 or infinite) on all vectors, and for cosine on non-zero vectors (over exact reals).",
"all datasets, kinds, leaf parameters, random draws, queries, radii, k, dimensions and orders p>=1",
"Requires the triangle inequality of each metric for all vectors.",
[U+"metrics.py:get_metric",U+"vptree.py:VPTree"])
p("C66","Menus and slider show what a new plot would",
"Pressing a button of the colour menu, choosing a step of the size slider or a colour scale of a figure drawn by plot_plotly shows exactly the traces that plot_plotly draws for that column and its title, that size or that colour scale alone; the labels are the titles, sizes and names; the active entries are what the figure shows. (The last is false of the code for colour scales when the first given name is not in Plotly's list.)",
"all graphs, positions, colour arrays, titles, sizes, colour scales, dimensions 2 and 3, every button and step",
"Ranges over all figures and all buttons; what a button does is data interpreted by the browser.",
[S+"plot_backends/plot_plotly.py:PlotlyPlot.set_ui",S+"plot_backends/plot_plotly.py:plot_plotly"])
p("C67","The history of a figure does not matter",
"After any sequence of plot_plotly_update calls (colours, aggregation and title together or not at all) on a figure of plot_plotly, the figure is the one that plot_plotly draws with the arguments given last.",
"all plots, all finite sequences of updates whose arguments can be drawn",
"Ranges over unbounded histories of updates.",
[S+"plot_backends/plot_plotly.py:plot_plotly_update",S+"plot_backends/plot_plotly.py:plot_plotly"])
p("C68","matplotlib figures",
"plot_matplotlib draws each node once, in order, at its position, with its aggregated colour and the size 200*node_size*sqrt(size/largest), each edge once from end to end, and colours from the least to the greatest. (False in three dimensions: if the graph has an edge it raises ValueError.)",
"all graphs with positions, colour arrays, aggregations, sizes",
"All graphs.",
[S+"plot_backends/plot_matplotlib.py:plot_matplotlib"])
p("C69","The text of an estimator",
"repr(estimator) succeeds; it is a call of the class whose keyword arguments are, in attribute order and without repetition, exactly the public parameters whose text differs from that of the default, each with its own text. An estimator built without arguments is shown as Class(), and a clone is shown like the estimator it was made from. (repr raises AttributeError if a public attribute not assigned by the constructor was added.)",
"all estimators, nested or not, with all parameter values",
"Ranges over all classes, parameter values and nestings.",
[S+"_common.py:ParamsMixin.__repr__",S+"_common.py:clone"])
p("C70","The tree, the pivots and the random draws do not affect the result",
"BallCover.apply depends only on data, metric and radius, and CubicalCover.apply only on data, algorithm, number of intervals and overlap: for any kind of tree, leaf capacity, leaf radius, pivoting strategy, random draws and earlier fits the charts are the same, in the same order, up to the order of indices within a chart. If the clustering does not depend on the order of points, the Mapper graph is then the same up to the numbers of its nodes: corresponding nodes have the same size and ids, and the edges and connected components agree.",
"all datasets, pairs of parameter sets that agree in metric and radius (or algorithm, intervals and overlap), random draws, clusterings insensitive to order, iteration orders of sets",
"Ranges over all pairs of runs with different random draws and tuning parameters.",
[S+"cover.py:BallCover",S+"cover.py:CubicalCover",S+"core.py:mapper_graph",S+"core.py:mapper_connected_components",U+"vptree.py:VPTree"])
p("C71","KNNCover is reproducible",
"KNNCover.apply depends only on data, metric and number of neighbours, not on the tree, its pivots or random draws. (False of the code when distances tie: two runs with other random pivots give graphs with other nodes and other connected components. Proved for data without ties.)",
"all datasets, pairs of parameter sets that agree in metric and neighbours, random draws",
"Ranges over all pairs of runs with different random draws and tuning parameters.",
[S+"cover.py:KNNCover",U+"vptree_flat/knn_search.py",U+"vptree_hier/knn_search.py"])
p("C72","The order of the rows does not matter",
"Shuffling the rows of the data and of the lens alike gives the same Mapper graph and the same connected components up to the names of points and nodes. (Proved for StandardCubicalCover and TrivialCover with clusterings insensitive to order, and for BallCover if being nearer than the radius is transitive on the rows. False of the code for BallCover otherwise, and for ProximityCubicalCover and KNNCover, which choose centres in dataset order; for KNNCover even without tied distances.)",
"all datasets, all permutations of the rows, all parameters, random draws, clusterings insensitive to order",
"Ranges over all datasets and permutations.",
[S+"cover.py:StandardCubicalCover.apply",S+"core.py:proximity_net",S+"core.py:mapper_graph"])
p("C73","Searches with rounded distances",
"When distances are floating-point numbers computed with error at most u, a VPTree search never crashes; a ball search returns every entry whose true distance is within the radius by a margin of 4u and only entries whose true distance exceeds it by at most u; a nearest-neighbour search returns no entry farther than one left out by more than 5u plus the error of one subtraction. (Without a margin this is false: an entry whose true and computed distance are both exactly in the ball can be missed.)",
"all datasets, kinds, leaf parameters, random draws, queries, radii, k; all machine numbers with faithful subtraction; all symmetric computed distances with bounded error; finite, no NaN",
"Ranges over all roundings of all distances in all trees.",
[U+"vptree_flat/ball_search.py",U+"vptree_flat/knn_search.py",U+"vptree_hier/ball_search.py",U+"vptree_hier/knn_search.py"])
p("C74","BallCover covers every point even when the metric is not exact",
"For every symmetric distance function with d(x,x) < radius - a metric or not, exact or rounded - BallCover.apply yields well-formed charts that cover every row, each chart holding only rows whose computed distance from its centre is below the radius; with rounded metrics a chart contains every row that is inside by the margin. (Symmetry is needed: with an asymmetric distance a row can be left out of every chart.)",
"all datasets, all symmetric distance functions, radii, kinds of tree, leaf parameters, random draws",
"Ranges over all distance functions, including those that violate the triangle inequality.",
[S+"cover.py:BallCover",S+"core.py:proximity_net",U+"vptree.py:VPTree"])
p("C75","With trivial clustering the Mapper graph is the nerve of the cover",
"With the trivial clustering, mapper_graph has one node per chart, numbered in the order of the charts, whose ids are the points of the chart in increasing order, and two nodes are adjacent exactly if their charts share a point. With BallCover: one node for each centre of a maximal set of rows at mutual distance at least the radius, consisting of the rows nearer than the radius, adjacent exactly if some row is near to both centres.",
"all datasets, all covers with well-formed charts; all ball covers, metrics, random draws",
"Combines cover, clustering and graph for all inputs.",
[S+"core.py:mapper_graph",S+"core.py:TrivialClustering",S+"cover.py:BallCover"])
p("C76","Components are chains of clusters",
"Two points have the same label in mapper_connected_components exactly if a chain of points links them in which neighbours are in one cluster of one chart; a point has label -1 exactly if it is in no cluster. With BallCover and trivial clustering the steps of the chain are shorter than twice the radius. (Nearness is not enough: points nearer than the radius can be in different components, shown by a witness.)",
"all datasets, covers, clusterings, iteration orders of sets; all ball covers",
"Ranges over all chains of points.",
[S+"core.py:mapper_connected_components",S+"cover.py:BallCover"])
p("C77","Hierarchical trees are balanced",
"A hierarchical VPTree of n points with leaf capacity at least 1 has height at most log2(n) rounded up, for every distance function, pivot strategy and draw. So building and searching nest at most that many calls, and never reach the interpreter's recursion limit for n <= 2^(limit-1).",
"all datasets, distance functions, parameters with leaf_capacity >= 1, random draws, recursion limits",
"Recursion depth for every dataset size cannot be sampled.",
[U+"vptree_hier/builder.py:Builder._build_rec",U+"vptree_hier/common.py"])
p("C78","Infinite distances and NaN",
"With a symmetric distance function that may return infinities and NaN, building a VPTree, ball search and BallCover.apply never fail nor loop; a search returns only entries whose distance is in the ball, each at most as often as it is in the dataset; charts contain only rows within the radius of some row. If the distances among the rows are finite, every row within the radius of itself is covered. (Not otherwise, shown by witnesses: with a metric with infinite values rows are left out of every chart, and with the hierarchical tree one row with NaN distances hides another.)",
"all datasets, symmetric distance functions into floating-point numbers with infinities and NaN, radii, kinds of tree, leaf parameters, random draws",
"Ranges over all placements of infinities and NaN in all arrays and trees.",
[U+"quickselect.py:quickselect",U+"vptree.py:VPTree.ball_search",S+"cover.py:BallCover"])
p("C79","The figure of the app",
"Whatever table and labels a user loads, once a run of Mapper has returned a graph, drawing it succeeds for every setting with a non-negative seed. The figure offers as colours each label, lens value and data column, in that order and under its name; choosing one colours every node with the mean of that column over the node's points, ignoring rows the column does not have; at first the first of them is shown. Nodes and edges are where the layout with the chosen dimensions, iterations and seed puts them. It has a slider with the node sizes 0, 1/8, ..., 2 starting at 1, and the five colour scales. (A negative seed, which the page accepts, makes drawing fail.)",
"all tables, labels, graphs, lenses, settings, layouts",
"Ranges over all tables, including ones whose lengths differ.",
[S+"app.py:create_mapper_figure",S+"app.py:run_mapper",S+"app.py:fix_data",S+"plot_backends/plot_plotly.py:plot_plotly"])
p("C80","Iterating over the charts of a cover",
"cover.apply(X) runs nothing before its first chart is asked for. From then on the generator yields the charts of X in order, each exactly once, and then stops, whatever else is done with the cover in between: parameters changed, searches made, other generators made and advanced. (Holds in full for CubicalCover, whose generators have their own state. For BallCover and KNNCover it holds as long as the cover is not fitted again, and for BallCover also if everything concerns the same data; advancing two generators over different data in turn makes one of them miss rows, shown by a witness.)",
"all histories of fit, search, set_params, apply and next on a cover and all its generators; all datasets, parameters, random draws",
"Ranges over all interleavings of all iterations.",
[S+"cover.py:BallCover.apply",S+"cover.py:KNNCover.apply",S+"cover.py:CubicalCover.apply",S+"cover.py:StandardCubicalCover.apply",S+"core.py:proximity_net"])
p("C81","Covers whose fit raised",
"If fit of a cover raises, searches afterwards either answer as before or raise AttributeError, and the next fit that succeeds makes the cover answer as a new one, whatever happened before. (Holds in full for CubicalCover. BallCover, KNNCover and the two other cubical covers recover, but when radius, neighbors, n_intervals or overlap_frac was changed before the fit that raised, searches of the old data use new parameters, shown by witnesses.)",
"all states of a cover, all datasets, parameters, random draws, all ways in which fit raises",
"Ranges over all states left behind by all failures.",
[S+"cover.py:BallCover.fit",S+"cover.py:KNNCover.fit",S+"cover.py:BaseCubicalCover.fit",S+"cover.py:CubicalCover.fit"])
p("C82","Cubical covers with floating-point numbers",
"Whatever the entries of the data, number of intervals and overlap fraction between 0 and 1, the cubical covers computed in floating-point arithmetic cover every row, and a search at a row returns the rows in the box around its cell. (Proved up to rounding: with relative rounding error w and E = max over columns of n_intervals * w * (1 + |least entry| / width), the box is right up to a margin proportional to E, and every row is covered if overlap_frac > 48 E + 6 w. Without such a bound rows are left out: shown in double precision by a witness with entries around 2^53.)",
"all datasets with at least one column, parameters, random draws, all number formats with relative rounding error at most 1/64, in particular IEEE 754 double precision without overflow and underflow",
"Ranges over all roundings in all operations on all data.",
[S+"cover.py:BaseCubicalCover",S+"cover.py:ProximityCubicalCover",S+"cover.py:StandardCubicalCover",U+"_metrics.py:chebyshev"])
p("C83","Nearest neighbours with infinite and NaN distances",
"With any distance function, which may return infinities and NaN, knn_search and KNNCover.apply terminate without error; a search returns min(k, n) entries of the dataset, none farther than one left out. (Totality, at most k entries, none repeated beyond the dataset, and well-formed charts hold for every distance function; the answer is exact when distances are finite. With infinite distances fewer than k entries are returned and rows within reach are missed, and a single row with NaN distances changes the neighbours of the others, shown by witnesses for both kinds of tree.)",
"all datasets, distance functions with values in floating-point numbers including infinities and NaN, kinds of tree, parameters, random draws, queries, k",
"Ranges over all datasets and all distance functions.",
[U+"vptree_flat/knn_search.py:KnnSearch",U+"vptree_hier/knn_search.py:KnnSearch",U+"heap.py:MaxHeap",S+"cover.py:KNNCover"])
p("C84","From arrays to the Mapper graph, with the covers of the library",
"MapperAlgorithm(cover).fit_transform(X, y) without a clustering, for two-dimensional arrays of numbers with as many rows (y may be omitted, and for the cubical covers be one-dimensional), returns: with a BallCover, the graph of open balls around rows of the lens at mutual distance at least the radius whose balls contain all rows; with a cubical cover, the graph of open boxes around cells of rows, together containing all rows (all cells of rows, with the standard algorithm); with a KNNCover, if no row coincides with as many others as there are neighbours, the graph of sets of nearest neighbours that contain all rows. There is one node per region, its ids are the positions of the rows in the region in increasing order, its size is their number, and two nodes are joined exactly if some row is in both regions. MapperClustering.fit gives two rows one label exactly if a chain of rows links them, each in one region with the next.",
"all arrays of finite numbers, parameters of the covers and of the estimators (objects on any heap, with any other objects), pseudo-metrics by name or as a function, random draws",
"Ranges over all data, parameters and objects; composes validation, parameters, covers, clustering and graph construction.",
[S+"learn.py:MapperAlgorithm",S+"learn.py:MapperClustering",S+"cover.py:BallCover",S+"cover.py:KNNCover",S+"cover.py:CubicalCover",S+"core.py:mapper_graph",S+"core.py:mapper_connected_components",S+"_common.py:EstimatorMixin"])
p("C85","Distances computed in floating point",
"Computed in floating-point arithmetic, with the additions in any order, the named metrics are symmetric to the last bit on all vectors; the distance of a vector with finite entries from itself is zero; euclidean, manhattan and chebyshev have a relative error of at most (1+w)^(h+4)-1, (1+w)^(h+1)-1 and w, where w is the rounding error of one operation and h the number of additions an entry goes through; the square of cosine differs from the exact one by at most 4((1+w)^(5h+14)-1); with exact operations all metrics are the exact ones; a ball search of a tree is right up to the corresponding margin; and a BallCover covers every row. (Zero self-distance and coverage fail for cosine: in double precision cosine([1,1,1],[1,1,1]) is NaN and such rows are in no chart, shown by a witness.)",
"all vectors of all dimensions, all orders of addition, orders p > 0 of minkowski, number formats with infinities and NaN (symmetry, self-distance, coverage) or with relative error at most 1/64 (accuracy), datasets, kinds of tree, parameters, random draws",
"Ranges over all vectors, all roundings and all orders in which a compiler may add.",
[U+"_metrics.py:euclidean",U+"_metrics.py:manhattan",U+"_metrics.py:chebyshev",U+"_metrics.py:minkowski",U+"_metrics.py:cosine",U+"metrics.py:get_metric",S+"cover.py:BallCover"])
p("C86","Units of measurement",
"Measuring the lens in other units does not change the Mapper graph. With a BallCover the charts depend only on which pairs of rows are nearer than the radius, so multiplying all distances and the radius by the same positive number, or applying an isometry, changes nothing; with a KNNCover they depend only on the order of the distances from each row; with a cubical cover each column may be multiplied by a positive number and shifted. (KNNCover: proved without ties, see C71. Cubical covers: proved unless a column gets narrower than the machine epsilon or ceases to be; such columns count as constant, which a witness shows to depend on the unit.)",
"all pairs of datasets related in the stated way, parameters of the covers, trees, random draws, clusterings",
"Ranges over all datasets and all changes of units.",
[S+"cover.py:BallCover",S+"cover.py:KNNCover",S+"cover.py:BaseCubicalCover",S+"cover.py:CubicalCover",S+"core.py:proximity_net",S+"core.py:mapper_graph"])
p("C87","Searches after the data was written to in place",
"If an array is written to after a VPTree, BallCover or KNNCover was built on it, a search still succeeds and returns the rows which are in the ball, or nearest, now. (No row outside the ball is ever returned. All rows in the ball by the margin by which distances among rows changed are returned, so that the answer is exact after a rigid motion of the whole array, and right up to twice the largest move otherwise; neighbours are right up to that margin. Without a margin a search at a row that was written to misses that row, shown by a witness for both kinds of tree.)",
"all datasets, contents of the rows at the time of the fit and of the search, pseudo-metrics, kinds of tree, parameters, random draws, queries",
"Ranges over all writes between fit and search.",
[U+"vptree.py:VPTree",U+"vptree_flat/builder.py:Builder",U+"vptree_hier/builder.py:Builder",U+"vptree_flat/ball_search.py:BallSearch",U+"vptree_hier/ball_search.py:BallSearch",U+"vptree_flat/knn_search.py:KnnSearch",U+"vptree_hier/knn_search.py:KnnSearch",S+"cover.py:BallCover",S+"cover.py:KNNCover"])
p("C88","Calls of the distance function",
"Building a tree on n entries calls the distance function on pairs of entries only, at most n (log2 n + 1) times with the logarithm rounded up (three times as often with furthest pivoting). A search calls it with the query point and an entry, at most once for every entry, so never more often than a scan of the data. BallCover.apply and KNNCover.apply call it on pairs of rows only. If a call raises, the exception of the first such call is what the user gets, and if no call raises the result is the same; a row on which the metric raises is never skipped silently: both covers raise. In particular with cosine both raise ZeroDivisionError exactly if some row is null.",
"all datasets, distance functions (no law assumed), exceptions they may raise, kinds of tree, parameters with positive leaf capacity, random draws, queries, radii and numbers of neighbours",
"Ranges over all datasets, distance functions and exceptions.",
[U+"vptree.py:VPTree",U+"vptree_flat/builder.py:Builder",U+"vptree_hier/builder.py:Builder",U+"vptree_flat/ball_search.py:BallSearch",U+"vptree_hier/ball_search.py:BallSearch",U+"vptree_flat/knn_search.py:KnnSearch",U+"vptree_hier/knn_search.py:KnnSearch",S+"cover.py:BallCover",S+"cover.py:KNNCover",U+"_metrics.py:cosine"])
p("C89","A MapperClustering as the clustering of another estimator",
"With a MapperClustering as clustering parameter, MapperAlgorithm.fit_transform returns the graph obtained by clustering the points of every chart as that MapperClustering, fitted alone on those points, would label them, with the same exceptions; likewise for a MapperClustering inside a MapperClustering, at any depth. Hence with ball covers for both, two points of a ball of the lens are in one node exactly if a chain of points of that ball links them, each in one of the smaller balls of the data space with the next; different clusters are different nodes, and nodes are adjacent exactly if they share a point.",
"all object graphs, covers, inner clusterings, depths of nesting, inputs; for the ball covers all arrays, pseudo-metrics, radii, kinds of tree and parameters",
"Ranges over all inputs and nestings.",
[S+"learn.py:MapperClustering.fit",S+"learn.py:MapperAlgorithm.fit",S+"core.py:mapper_labels",S+"core.py:mapper_connected_components",S+"_common.py:clone"])
p("C90","Appending rows to the dataset",
"With a BallCover and no clustering, the Mapper graph of a dataset with rows appended contains that of the dataset: every node keeps its number and, of the old rows, exactly those it had, edges remain, and rows of one connected component stay in one. If every appended row coincides with an old one there are no further nodes, and coinciding rows are in the same nodes. The same holds for the cubical covers as long as the appended rows are within the bounding box of the dataset, except that with the standard algorithm the numbers of the old nodes grow by the number of new nodes. (Outside the bounding box, and with a KNNCover, rows of one component can be separated: shown by witnesses.)",
"all datasets and appended rows, pseudo-metrics, radii, intervals, overlap fractions, different trees, pivots and random draws for the two runs",
"Ranges over all datasets and all rows appended to them.",
[S+"core.py:proximity_net",S+"core.py:mapper_graph",S+"core.py:mapper_connected_components",S+"cover.py:BallCover",S+"cover.py:KNNCover",S+"cover.py:ProximityCubicalCover",S+"cover.py:StandardCubicalCover"])
p("C91","Nodes without a colour",
"Where values are missing (NaN), the colour of a node is, with the default aggregation, the mean of the values of its points that are present, and is missing exactly if all of them are. The range of the colours is from the least to the greatest colour of the nodes that have one, and these nodes are coloured as if the others were absent; nodes without a colour cannot be mistaken for others. (In pyvis the range is right, but a node without a colour is drawn like the node with the greatest one. In Plotly and Matplotlib the range is right if the first node has a colour; otherwise both ends of the range are NaN, whatever the other nodes.)",
"all graphs, values with missing entries",
"Ranges over all graphs and all patterns of missing values.",
[S+"core.py:aggregate_graph",S+"plot_backends/plot_plotly.py:_set_colors",S+"plot_backends/plot_matplotlib.py:plot_matplotlib",S+"plot_backends/plot_pyvis.py:_compute_net"])
p("C92","Calling the constructors",
"A constructor call is accepted exactly if its arguments fit the documented parameters: not more positional arguments than parameters, no unknown or doubled keyword; otherwise it raises TypeError. It makes one new object, every parameter having the given value or else its default, and changes no other object. A MapperAlgorithm made with such a cover and otherwise defaults, from any history of earlier objects, gives the graph of the balls, hypercubes or neighbourhoods it was asked for; without any argument, or with a single interval per axis, it gives a single node holding all points. A MapperClustering made this way labels the points by the connected components.",
"all argument lists, all heaps of earlier objects, all datasets",
"Ranges over all ways of passing arguments, all earlier objects and all datasets.",
[S+"cover.py:BallCover.__init__",S+"cover.py:KNNCover.__init__",S+"cover.py:BaseCubicalCover.__init__",S+"cover.py:CubicalCover.__init__",S+"learn.py:MapperAlgorithm.__init__",S+"learn.py:MapperClustering.__init__",S+"core.py:TrivialClustering.__init__"])
p("C93","The columns of the lens",
"With a given overlap fraction the result of the cubical covers depends on the set of the columns of the lens only: putting the columns in another order, repeating columns and adding columns that are constant gives the same charts, the same Mapper graph up to the names of the nodes and the same connected components. For BallCover, and for KNNCover if no distances are tied, the same holds of the order of the columns and of added constant columns, with every metric of the library except cosine, whose value only ignores columns of zeros. (With overlap_frac=None adding a constant column does change the result of the cubical covers, as the overlap is then chosen by the number of columns.)",
"all lenses, all rearrangements of their columns, all parameters, trees and random draws",
"Ranges over all lenses and all rearrangements of columns.",
[S+"cover.py:BaseCubicalCover._get_bounds",S+"cover.py:BaseCubicalCover._offset",S+"cover.py:StandardCubicalCover.apply",S+"cover.py:ProximityCubicalCover.apply",S+"cover.py:BallCover.apply",U+"metrics.py:get_metric"])
p("C94","Coarser parameters, coarser graphs",
"With the trivial clustering, enlarging the overlap fraction, the radius or the number of neighbours, or replacing the number of intervals by one of its divisors, only makes the Mapper graph coarser: every node's rows are in one node of the new graph, joined nodes go to joined nodes or to the same node, and rows in one connected component stay in one connected component.",
"all datasets and lenses, all parameters, trees and random draws",
"Compares two runs on every dataset; examples only show that some datasets behave well.",
[S+"cover.py:StandardCubicalCover.apply",S+"cover.py:BallCover.apply",S+"cover.py:KNNCover.apply",S+"cover.py:ProximityCubicalCover.apply",S+"core.py:mapper_graph",S+"core.py:mapper_connected_components"])
p("C95","The coarsest and the finest parameters",
"If the cover has a single chart, as with TrivialCover, a radius above all distances from the first row, at least as many neighbours as rows, or one interval, then Mapper is the clustering itself: the graph has no edges, its nodes are the clusters, and mapper_connected_components returns the labels of the clustering, with -1 for noise. If the radius is below all distances, or with one neighbour and distinct rows, every row is a chart of its own, and with the trivial clustering the graph has one node per row and no edges.",
"all datasets, lenses and clusterings, all trees and random draws",
"Ranges over all datasets and clusterings.",
[S+"core.py:mapper_connected_components",S+"core.py:mapper_graph",S+"core.py:TrivialCover",S+"core.py:proximity_net",S+"cover.py:BallCover.apply",S+"cover.py:KNNCover.apply",S+"cover.py:BaseCubicalCover"])
p("C96","What the server keeps does not change a page",
"In the Streamlit app, a page shows what its controls ask for, whatever pages the server has shown before, to whatever users: data, graph, statistics and figure are those of a new server, and it fails exactly if it fails on a new server. (Data, graph and statistics do. The figure does not: layouts are kept by nodes and edges only, so after a page of other data whose graph has the same nodes and edges the colours are computed from the points of the other graph, or the page raises IndexError.)",
"all sequences of pages, all data, estimators and settings",
"Ranges over all histories of the server.",
["app/streamlit_app.py:main","app/streamlit_app.py:load_data","app/streamlit_app.py:compute_mapper","app/streamlit_app.py:compute_mapper_plot","app/streamlit_app.py:compute_mapper_fig","app/streamlit_app.py:_encode_graph","app/streamlit_app.py:_hash_mapper_plot"])
p("C97","Limits, modes and downloads of the Streamlit app",
"With limits enabled, no page is ever shown for data or a graph beyond them: too large data give a message, and too large graphs ValueError, whatever was shown before. The aggregation by mode gives the most frequent value, the least one of several. The table that is downloaded holds the features and targets of each sample in one row. (It does not: the targets are put in rows of their own below the features.)",
"all sequences of pages, all data, graphs and limits; all lists of values",
"Ranges over all histories, data and lists of values.",
["app/streamlit_app.py:_check_limits_dataset","app/streamlit_app.py:_check_limits_mapper_graph","app/streamlit_app.py:mode","app/streamlit_app.py:data_download_button"])
p("C98","Parameters set later take effect at the next fit, and earlier fits do not matter",
"In any history of calls of fit and set_params, on any number of estimators that may share covers and clusterings, the parameters are those set last; and the next fit computes the graph or the labels of estimators which have these parameters and were never fitted. In particular, after set_params(cover__radius=r) on one estimator, all estimators with the same cover compute the graph for balls of radius r.",
"all histories of valid calls of fit and set_params, nested parameters and replaced nested estimators included; all data",
"Ranges over all histories of calls.",
[S+"_common.py:ParamsMixin.set_params",S+"learn.py:MapperAlgorithm.fit",S+"learn.py:MapperClustering.fit",S+"_common.py:clone"])
p("C99","Loading data in the web app",
"In every history of the page the stored data and labels are those of the last file uploaded or example loaded, repaired by fix_data. Pressing Load data without a known choice or without data changes nothing; otherwise the columns of the data, all included, are offered for exclusion and graph and figure stay. With CSV selected, Load data gives the data of the uploaded file. (It does not if an example was loaded since the upload: the data of the example is kept.)",
"all histories of events, all files and examples",
"All histories.",
[S+"app.py:App.load_data",S+"app.py:App.upload_file"])
p("C100","Noise in the lens and nearby radii",
"The Mapper graph and its connected components stay the same under small changes. With BallCover, if each row of the lens is moved by at most e, unless the distance of two rows is within 2e of the radius; and if the radius is changed, unless the distance of two rows is at least the smaller radius and less than the larger. With KNNCover, if each row is moved by at most e, unless the distances of a row from two others differ by 4e or less. With CubicalCover, if coordinates are moved by at most e which are further than e from the ends of all cells and boxes. For balls the margin is needed: if a distance equals the radius, noise of any size changes the charts.",
"all datasets, lenses and movements, all parameters, trees and random draws",
"Compares runs on every dataset and all datasets near it.",
[S+"cover.py:BallCover.apply",S+"cover.py:KNNCover.apply",S+"cover.py:CubicalCover.apply",S+"core.py:mapper_graph",S+"core.py:mapper_connected_components"])
p("C101","Comparisons made by quickselect and while building trees",
"quickselect on m entries makes at most m(m-1) comparisons, and building a vantage point tree on n entries at most 4n^2. The bounds cannot be improved to less than quadratic ones: if no entry is less than another, quickselect makes (m-1)+(m-2)+... comparisons, one summand for each position from the start up to the selected one; and if all distances between the entries are equal, as for copies of one row, building a tree with more entries than a leaf holds makes at least n(n-2)/4 comparisons, however few calls of the distance function it makes.",
"all arrays, ranges and positions; all data, distance functions, parameters and random draws, NaN included",
"Bounds the work on every input, and from below on every input with equal entries.",
[U+"quickselect.py:quickselect",U+"vptree_flat/builder.py:Builder.build",U+"vptree_hier/builder.py:Builder.build"])
p("C102","Comparisons made by a MaxHeap",
"add on a heap of n items makes at most floor(log2(n+1))+1 comparisons of keys and pop at most 2 floor(log2(n-1)), whatever the comparisons answer, so that m calls on a fresh heap make at most m(2 floor(log2 m)+1).",
"all heaps, keys, answers of comparisons (also contradictory ones) and histories of calls",
"Bounds the work for every heap and every behaviour of the keys.",
[U+"heap.py:MaxHeap.add",U+"heap.py:MaxHeap.pop"])
p("C103","What a MaxHeap holds after a comparison raised",
"Whatever the comparisons of keys answer or raise, add and pop terminate and raise nothing but what a comparison raised. The item given to add is in the heap afterwards even if add raises; pop removes its item even if it raises, and the client then does not get it. So after every history of calls the items added are those in the heap, those returned, and one for each pop that raised. The heap need not be a priority queue any more after an exception: a later pop may return an item that is not the largest.",
"all heaps, keys, points at which comparisons raise, and histories of calls whose exceptions are caught",
"Ranges over every comparison at which an exception may occur.",
[U+"heap.py:MaxHeap.add",U+"heap.py:MaxHeap.pop",U+"heap.py:_HeapNode.__lt__"])
p("C104","Log records of failing clusterings",
"With failsafe and verbose set, computing a Mapper graph logs one warning for each chart on which the clustering raised ValueError, in the order of the charts and with the message of the exception, and no other; if the computation raises, those of the charts before. Without verbose it logs nothing. Logging changes neither the graph nor the exception.",
"all datasets, covers and clusterings, run one job after another",
"Ranges over every clustering and every subset of charts on which it may fail.",
[S+"core.py:FailSafeClustering.fit",S+"core.py:mapper_labels",S+"learn.py:MapperAlgorithm.fit"])
p("C105","The last request wins in the web app",
"Once nothing is pending, the stored graph and lens values are the result of the last press of Run Mapper, the figure shown is one of them, and after a press of Redraw it has the settings at that time. (This holds if the computations end in the order in which they were requested. Otherwise it does not: the result that arrives last is kept, and the figure can be one of a graph that is no longer stored.)",
"all pages, with any computations pending, and all histories of events after the press",
"Ranges over all schedules of the pending computations.",
[S+"app.py:App.async_run_mapper",S+"app.py:App.async_draw_mapper"])
p("C106","Near nodes hold near values of the lens; equal rows are treated alike",
"Whatever the clustering, two rows of one node have near values of the lens, and so have rows of nodes joined by few edges: with BallCover of radius r, rows of nodes n edges apart are at distance less than 2(n+1)r; with CubicalCover they differ in each column that is not constant by less than n+1 times the width of its intervals. With the trivial clustering, rows with equal values of the lens are in the same nodes. (For KNNCover neither holds: a node can hold rows any distance apart, and of two equal rows one can be in nodes and the other in none.)",
"all datasets, lenses, parameters, clusterings that return, and numbers of edges",
"Ranges over all datasets and over paths of every length.",
[S+"core.py:mapper_graph",S+"cover.py:BallCover.apply",S+"cover.py:CubicalCover.apply",S+"cover.py:KNNCover.apply"])
p("C107","Interrupted calls of a UnionFind",
"If calls of find and union are interrupted (KeyboardInterrupt, an exception from a signal handler) between any two of their accesses to the object, the object stays usable: find still answers for every element, finished unions stay in force, and each interrupted union has either happened or not. Only the bound on the depth of the trees is lost.",
"all histories of calls, each interrupted at any access or run to its end",
"Ranges over every interruption point of every call in every history.",
[U+"unionfind.py:UnionFind.find",U+"unionfind.py:UnionFind.union"])
p("C108","Calls of a UnionFind from several threads",
"Several threads may call methods of one UnionFind at a time: every call returns the answer it would give in some order of the calls, and later calls see all unions. (This holds if all of them call find: the answers are those of calls alone, each thread needs at most 4 log2 n + 1 accesses, and nothing changes for later calls. It does not hold as soon as one thread calls union: a union can get lost, and a search can run forever, even if only one thread unites and the other one only searches.)",
"all reachable objects, numbers of threads, elements and schedules of their accesses",
"Ranges over all interleavings of any number of threads.",
[U+"unionfind.py:UnionFind.find",U+"unionfind.py:UnionFind.union"])
p("C109","The warning about overlap fractions above one half",
"Fitting a cubical cover on data with an overlap fraction above one half, by fit or by asking for the first chart of apply, warns the user; nothing else warns, in particular not overlap_frac=None. The warning does not change any answer: with all filters of Python's warnings module that do not turn warnings into errors, searches and charts are the same. If warnings are errors, such a call raises UserWarning, the iteration ends, and a cover that was never fitted still answers no search. (With the filter 'always' every such call shows a warning. With the filters Python has at the start only the first one does, until the filters are changed, as text and line of the warning are always the same.)",
"all histories of any number of cubical covers, with parameters, data, generators and filters changed at any time",
"Ranges over all histories of a process.",
[S+"cover.py:BaseCubicalCover.fit",S+"_common.py:warn_user"])
p("C110","Illegal values of parameters are reported",
"A program that computes a Mapper graph with an illegal value of a parameter raises an exception when it runs: an unknown kind, metric or algorithm and an overlap fraction that is not positive raise ValueError, an overlap fraction of 1 raises ZeroDivisionError. (It does not hold for all parameters: any string is accepted for pivoting, and with a radius that is not positive or an overlap fraction above 1 the graph silently has no nodes.)",
"all datasets, lenses, states of the process, and calls of the constructors of covers with arguments of the right types",
"Ranges over every string that is not a legal value and over all data.",
[S+"cover.py:BallCover.fit",S+"cover.py:KNNCover.fit",S+"cover.py:BaseCubicalCover.fit",S+"cover.py:CubicalCover.apply",S+"utils/metrics.py:get_metric",S+"utils/vptree.py:VPTree"])
p("C111","Wrong arguments of plots are reported",
"Arguments of plots that cannot be used raise an exception: colours with no or more than two dimensions, titles, sizes and colour scales of other types, and a list with another number of titles than there are columns raise ValueError; empty lists, and colours without a row for a point of some node, raise IndexError; an unknown colour scale raises the error of Plotly or Matplotlib. A failing update for an argument of the wrong kind leaves the figure as it was, and a failing plot_pyvis writes nothing. (It does not hold for colours with too many rows: the further rows are silently ignored.)",
"all graphs with positions, arguments, palettes and aggregations, and all three backends",
"Ranges over all graphs and arguments, in particular over the position of the point without a row.",
[S+"plot_backends/plot_plotly.py:plot_plotly",S+"plot_backends/plot_plotly.py:plot_plotly_update",S+"plot_backends/plot_plotly.py:_to_titles",S+"plot_backends/plot_matplotlib.py:plot_matplotlib",S+"plot_backends/plot_pyvis.py:plot_pyvis",S+"core.py:aggregate_graph"])
p("C112","Parts of the data that are far apart do not affect one another",
"If some rows are far from all the other rows, then the Mapper graph of these rows alone is what the Mapper graph of all rows is on them: the same nodes with the same rows, the same edges, no edge to a node of other rows and no node with rows of both kinds; and the connected components of these rows are the same and contain no other rows. (With BallCover, far means a distance of at least the radius. With KNNCover it holds if every row is nearer to all rows of its own group than to those of the other, both groups have at least `neighbors` rows and there are no ties. It does not hold with smaller groups, nor with cubical covers, whose hypercubes depend on the bounding box of all rows.)",
"all datasets, lenses, choices of rows, metrics, trees and random draws of the two runs, and clusterings that always succeed and do not depend on the order of the points",
"Ranges over all data and all ways in which the rows of the two groups are mixed.",
[S+"core.py:mapper_graph",S+"core.py:mapper_connected_components",S+"core.py:proximity_net",S+"cover.py:BallCover.apply",S+"cover.py:KNNCover.apply",S+"cover.py:StandardCubicalCover.apply"])
p("C113","How large Mapper graphs can get",
"The size of a Mapper graph is bounded in terms of the data. A row has at most as many labels as it is in charts, the sizes of the nodes add up to the numbers of labels, there are at most that many nodes, and a row with k labels accounts for at most k(k-1)/2 edges. There are at most as many charts as rows. Every row is in a bounded number of charts, so that the numbers of nodes and of edges grow at most in proportion to the number of rows: let s be the number of columns of the lens that are not constant and K be 1/(1 - overlap_frac) rounded up, which is 2 for overlaps up to one half; then with cubical covers there are at most n_intervals^s charts, a row is in at most K^s of them, and without clustering a node has at most (2K-1)^s - 1 neighbours. (With BallCover and KNNCover a row can be in all charts, and the number of edges can grow with the square of the number of rows; the sizes of the nodes add up to at most k times the number of rows with KNNCover.)",
"all datasets, lenses, parameters, metrics, trees, random draws and clusterings that always succeed",
"Ranges over all data of all sizes.",
[S+"core.py:mapper_labels",S+"core.py:mapper_graph",S+"core.py:proximity_net",S+"cover.py:BallCover.apply",S+"cover.py:KNNCover.apply",S+"cover.py:StandardCubicalCover.apply",S+"cover.py:ProximityCubicalCover.apply"])
p("C114","Rows that are close together end up in one component",
"With the trivial clustering, rows of the lens that are close to each other share a node of the Mapper graph, so that rows linked by a chain of short steps are in one connected component and get the same label from MapperClustering, and the graph of data without gaps is connected. (With the standard cubical cover this holds for rows that differ in every column by less than half of the length in which adjacent intervals overlap: every row has a chart that contains all these rows. With a lens of one column it holds for both cubical algorithms and steps shorter than the overlap and not longer than the gap between intervals that are not adjacent. It does not hold for any length of steps with BallCover, with the default cubical algorithm and an overlap fraction of one half, or with that algorithm and several columns; nor with KNNCover.)",
"all datasets, lenses, parameters, trees and random draws",
"Ranges over all data and over chains of rows of any length; the violations are for steps of every length.",
[S+"core.py:mapper_graph",S+"core.py:mapper_connected_components",S+"core.py:proximity_net",S+"cover.py:StandardCubicalCover.apply",S+"cover.py:ProximityCubicalCover.apply",S+"cover.py:BallCover.apply",S+"cover.py:KNNCover.apply",S+"learn.py:MapperClustering.fit"])
p("C115","The older web app shows what its controls say",
"Whatever pages the server has shown before, a page of the Streamlit app shows the dataset selected in its menus (the named example, the OpenML dataset of that name, or the uploaded file) and the graph of the selected estimator for these data and the selected lens. The lens is reduced to the number of columns asked for unless the data have fewer columns, and data and lens are scaled exactly if their boxes are ticked. Without an upload, or if loading raises ValueError, a message is shown instead. The slider of the figure offers the node sizes 0, 0.25, ..., 2 and is on 1, which is what is drawn. If two pages have graphs with the same nodes and edges, listed in any order, and the same layout settings, the later page draws every node where the earlier one did.",
"all datasets, controls, histories of pages, and behaviours of the libraries under the app",
"Ranges over every history of pages on a server with shared caches, and over all data and estimators.",
["app/streamlit_app.py:load_data","app/streamlit_app.py:data_input_section","app/streamlit_app.py:mapper_lens_input_section","app/streamlit_app.py:compute_mapper","app/streamlit_app.py:_encode_graph","app/streamlit_app.py:compute_mapper_plot","app/streamlit_app.py:compute_mapper_fig","app/streamlit_app.py:main"])
p("C116","The downloaded graph is the whole graph",
"In the Streamlit app every graph that Mapper returned can be downloaded. The file lists its nodes with size and members, and the neighbours of each node. It can be read in one way only, and graphs with the same file are equal. The file offered beside a page is that of the graph which the data and the estimator chosen give, whatever pages were shown before.",
"all graphs that Mapper returns for any data, cover and clustering, and all histories of pages",
"Ranges over all graphs, with any labels, sizes and numbers of nodes, and over all histories.",
["app/streamlit_app.py:mapper_download_button",S+"core.py:mapper_graph"])
p("C117","The order of the parameters in set_params does not matter",
"obj.set_params(**D) does the same for every order of D, and get_params() then returns the values of D; in particular, a call that gives obj another estimator and sets parameters of it sets those of the new one, even if they are given first. a.set_params(**b.get_params()), in any order, gives a the parameters of b and changes no other object. (Proved if the parameters with a double underscore have plain values. It does not hold for an estimator two levels down: a call that replaces it and sets one of its parameters changes the old one instead of the new one if the parameter is given first.)",
"all objects nested to any depth, all parameter dictionaries and all their orders",
"Ranges over all permutations of dictionaries of any size and all object graphs.",
[S+"_common.py:ParamsMixin.set_params",S+"_common.py:ParamsMixin.get_params"])
p("C118","Every action in the web app reports its outcome",
"Run Mapper and Redraw either start a computation with a notification of its own that says it is going on, or say at once why not and change nothing. When Mapper ends, its notification says that it completed exactly if the page has the new graph, and otherwise that it failed; when a figure is drawn it is shown and its notification says so; no other notification changes. So a notification says that something is going on exactly if that computation has not ended, whatever is clicked meanwhile. Load data and uploads give one message, which tells whether data are loaded. (It does not hold for figures that raise: their notification says for ever that the figure is being drawn, and if Run Mapper started it, that Mapper failed although its graph is stored. A file that cannot be read is not reported.)",
"all histories of clicks, changed controls, uploads and ends of computations in any order, and all behaviours of the libraries under the app",
"Ranges over all interleavings of handlers that wait for computations, of any length.",
[S+"app.py:App.async_run_mapper",S+"app.py:App.async_draw_mapper",S+"app.py:App.notification_running_start",S+"app.py:App.notification_running_stop",S+"app.py:App.load_data",S+"app.py:App.upload_file"])
p("C119","An interrupted fit leaves the estimator usable",
"If fit of MapperAlgorithm or MapperClustering is interrupted at any point (Ctrl-C), then all estimators have the parameters they had, no object but the fitted estimator has changed (and those that its clustering shares with the clones made of it), and the result graph_ or labels_ is the one from before or the whole new one, never a part of it. After any history of calls of which any are interrupted, the next fit or fit_transform gives what it would have given at the start, and the result is that of the last call that came to its end or of one that was interrupted later. (One thing does not hold: after an interrupt between two assignments the new result is there with the n_features_in_ of the old one.)",
"all estimators, covers and clusterings that keep the scikit-learn contract, all data, all points of interruption and all histories of calls",
"Ranges over every point at which a call can stop and all histories of such calls.",
[S+"learn.py:MapperAlgorithm.fit",S+"learn.py:MapperClustering.fit",S+"core.py:FailSafeClustering.fit",S+"_common.py:clone"])
p("C120","Estimators can be fitted in several threads at the same time",
"If several threads call fit, each of its own MapperAlgorithm or MapperClustering, which may use the same cover and the same clustering objects, then under every schedule each call returns or raises what it would alone, and leaves the graph or labels and n_features_in_ that it would leave alone. No thread waits for another one, no schedule goes on forever, parameters never change, and shared covers and clusterings are as they were at every moment. (It does not hold if two threads fit the same estimator, which can end with the graph of one call and the number of features of the other; nor for estimators that share a FailSafeClustering around an estimator, which can get graphs in which points are missing.)",
"any number of threads and calls, all data, all schedules, and all covers and clusterings that keep the scikit-learn contract",
"Ranges over all interleavings of the steps of any number of threads.",
[S+"learn.py:MapperAlgorithm.fit",S+"learn.py:MapperClustering.fit",S+"core.py:FailSafeClustering.fit",S+"core.py:mapper_labels",S+"_common.py:clone"])
p("C121","Trees and covers see the points only through the distances",
"If two datasets have the same distances between corresponding rows, then BallCover and KNNCover with the same parameters and the same random draws give exactly the same charts, in the same order and with the indices in the same order, or raise the same exception; and so Mapper gives the same labels, graph and connected components. The same holds if the distances, the radius and the leaf radius are all in another unit; with floating-point numbers, in a unit that differs by a power of two. A matrix of precomputed distances may be used instead of the data, with the row numbers as data. Ball and nearest-neighbour searches in a VPTree on the images of the points find the images of the points found before. The distances may be anything: tied, asymmetric, rounded, or no metric at all.",
"all datasets, all metrics and functions that are none, all parameters of trees and covers, all random draws",
"Ranges over all pairs of datasets of any size and type and all functions as metrics.",
[U+"vptree_flat/vptree.py:VPTree",U+"vptree_hier/vptree.py:VPTree",U+"vptree.py:VPTree",S+"cover.py:BallCover",S+"cover.py:KNNCover",S+"core.py:mapper_graph"])
p("C122","Units that differ by powers of two give exactly the same cubical charts",
"With floating-point arithmetic, multiplying any columns of the data by powers of two, each by its own, leaves all charts of the cubical covers exactly as they were, in the same order and with the indices in the same order, so that Mapper gives the same labels, graph and connected components. Searching for a row in the new units finds what searching for it in the old units found. (The entries of a column whose unit changes must differ by more than the machine epsilon, before and after. Adding a number to a column is another matter: it changes charts even if no entry is rounded by it.)",
"all tables of any size, all precisions, all powers of two for each column, all parameters and both algorithms",
"Ranges over all tables of floating-point numbers, where one rounding error would suffice to change a chart.",
[S+"cover.py:BaseCubicalCover",S+"cover.py:ProximityCubicalCover",S+"cover.py:StandardCubicalCover",U+"metrics.py:chebyshev"])
p("C123","The signs of the columns of the lens do not matter",
"Reversing the signs of any columns of the lens (the sign of a principal component is arbitrary) leaves the charts, the Mapper graph and the connected components as they are: for the cubical covers of both algorithms, and for BallCover and KNNCover with any metric of the library, where even the order of charts and indices is the same for the same random draws. No metric of the library depends on the signs of coordinates. (It does not hold for the cubical covers if an entry is exactly where two intervals meet: the interval belongs to its left end, and the graphs can have different numbers of nodes.)",
"all lenses of any size, all sets of columns, all parameters of covers, trees and metrics, all clusterings",
"Ranges over all tables of numbers and all sets of columns.",
[S+"cover.py:CubicalCover",S+"cover.py:BaseCubicalCover",S+"cover.py:BallCover",S+"cover.py:KNNCover",U+"metrics.py:get_metric"])
p("C124","Rows that are repeated change nothing but the nodes' sizes",
"Repeating rows of the data, each any number of times and anywhere after its first occurrence (so that the rows first appear in the same order), leaves the charts of TrivialCover, BallCover and the cubical covers, the Mapper graph and the connected components as they are, except that each copy of a row is in the charts, nodes and component of the row: the nodes correspond one to one, with the same edges, and ids lists all the copies of the points it listed before. The clustering has to find the same clusters however often it is given each point, as the trivial clustering does. (It does not hold for KNNCover, because copies take the places of other neighbours. Copies that come before earlier rows amount to a change of the order of rows, and can change the graph of BallCover.)",
"all datasets, all numbers and positions of copies, all parameters of covers and trees, all random draws, all such clusterings",
"Ranges over all datasets and all ways to repeat their rows.",
[S+"core.py:proximity_net",S+"core.py:mapper_graph",S+"core.py:mapper_connected_components",S+"core.py:TrivialCover",S+"cover.py:BallCover",S+"cover.py:CubicalCover",S+"cover.py:KNNCover"])
p("C125","The numbers that a clustering gives to its clusters do not matter",
"Two clusterings that find the same clusters and the same noise in every chart, but number the clusters differently - in another order, with gaps, starting anywhere, differently in each job, with any negative numbers for noise - give the same Mapper graph up to the names of the nodes, with the same size, ids and edges, and the same connected components. If one of them raises, so does the other, with the same exception. It makes no difference to wrap both in FailSafeClustering.",
"all data, covers with valid charts and clusterings, all numberings of clusters",
"Ranges over all clusterings and all numberings, which can differ in every chart.",
[S+"core.py:mapper_labels",S+"core.py:mapper_graph",S+"core.py:mapper_connected_components",S+"core.py:FailSafeClustering"])
p("C126","An estimator can be read while another thread fits it",
"While threads fit MapperAlgorithms and MapperClusterings, no estimator in two threads, whoever reads graph_ (or labels_) of one of them sees, at every moment of every schedule, the one from before, or the whole graph (or all the labels) of the data it is being fitted on: never None, an empty or a half-built graph. It changes only once: a reader who has seen the new one never sees the old one again. The number of features is assigned one step later than the graph: in between, the two do not belong together.",
"all estimators, data, covers and clusterings without a FailSafeClustering around an estimator, all numbers of threads, all schedules, all moments",
"Ranges over all interleavings of the steps of all threads and all moments at which a reader looks; tests see the few schedules that happen.",
[S+"learn.py:MapperAlgorithm.fit",S+"learn.py:MapperClustering.fit",S+"_common.py:EstimatorMixin._set_n_features_in"])
p("C127","Coarser clusterings give coarser graphs",
"Replace the clustering by one that puts together at least what the first puts together in every chart: the nodes of the first Mapper graph go to nodes of the second that hold their points, edges go to edges, points in one connected component stay in one, and no point becomes noise. In particular the graph with any clustering lies over the graph without one. If the cover also gets coarser, every chart lying in a new one, the same holds (with edges going to edges or to one node) as long as points put together stay together among more points: so for single linkage with a threshold, on standard cubical covers with fewer intervals (a divisor), more overlap and a larger threshold. For clusterings that look for a given number of clusters it fails.",
"all datasets, lenses, covers, clusterings, thresholds, overlaps and numbers of intervals",
"Compares two runs for all inputs and all pairs of clusterings of which one is coarser.",
[S+"core.py:mapper_labels",S+"core.py:mapper_graph",S+"core.py:mapper_connected_components",S+"cover.py:StandardCubicalCover"])
p("C128","How a cover lists its charts does not matter",
"If two covers give the same charts, in whatever order and with the points of each in whatever order, the Mapper graphs are the same up to the names of the nodes, and so are the connected components (for clusterings that depend neither on the order of the points nor on the number of the job). Charts that are listed again, or that are parts of other charts, do not affect the connected components, as long as points that the clustering puts together stay together among more points. A chart listed twice appears in the graph as twins: two nodes with the same points, joined to each other and to the same other nodes.",
"all datasets, lists of charts, orders, clusterings",
"Compares two runs for all lists of charts and all rearrangements of them; users write their own covers.",
[S+"core.py:mapper_labels",S+"core.py:mapper_graph",S+"core.py:mapper_connected_components",S+"protocols.py:Cover"])
p("C129","Single linkage in the charts and single linkage of the data",
"With single linkage (with a threshold on the distance) as the clustering, on any cover of all points: no point is noise, and Mapper never joins what single linkage of the whole dataset keeps apart. If any two points within the threshold are in a common chart, the connected components are exactly the single linkage clusters of the dataset; this is so for standard cubical covers if the lens takes points within the threshold to rows that differ by less than half the overlap of adjacent intervals. With BallCover the components can be smaller.",
"all datasets, distances, thresholds, lenses, covers of all points, single linkage clusterings",
"Compares the result with a clustering of the whole dataset, for all inputs; tests compare it on a few datasets.",
[S+"core.py:mapper_connected_components",S+"core.py:mapper_labels",S+"cover.py:StandardCubicalCover",S+"cover.py:BallCover"])
p("C130","Jobs that raise an exception",
"With any number of workers, at every moment of every schedule of the clustering jobs: a job that has ended gave the labels, or raised the exception, that the clustering as a function gives on the points of its own chart. So any exception a user can see is one that the clustering raises on one of the charts; if it fails on some chart, no result is returned; if it fails on no chart, no job ever fails and all charts are clustered. Whatever fails, the clustering passed in, and every other object that existed, stays as it was. No schedule goes on forever, and the jobs can always be run until they stop.",
"all datasets, lists of charts, clusterings that share no fitted object with their clones, numbers of workers, schedules, moments of a schedule (ending: also all other clusterings)",
"Ranges over all schedules and all moments of them, including those in which several jobs fail at different times; a test sees one schedule, and cannot force another.",
[S+"core.py:mapper_labels"])
p("C131","Graphs over a lens with one column",
"For every cover and clustering, the Mapper graph lies over the cover: the rows of a node are in one chart, nodes of one chart have no row in common, and joined nodes are of different charts that share a row. With cubical covers joined nodes have different cells, less than 1/(1 - overlap_frac), rounded up, apart in each column. If one column of the lens is not constant and overlap_frac is at most one half, or with BallCover on points of a line, nodes have levels (their interval, or the position of their centre among the centres) and edges lead only to the next level, up or down: closed walks have an even number of edges, so that there are no triangles, and a connected component fills all levels between any two of its levels. (With larger overlaps, and with KNNCover, there can be triangles.)",
"all datasets, lenses, covers, clusterings, parameters",
"Ranges over all graphs the library can produce; users read the graph of a one-column lens as a Reeb graph.",
[S+"core.py:mapper_graph",S+"core.py:mapper_labels",S+"cover.py:CubicalCover",S+"cover.py:BallCover",S+"cover.py:KNNCover"])
p("C132","With the trivial clustering, graphs over a line consist of paths",
"If one column of the lens is not constant and overlap_frac is at most one half, the Mapper graph of either cubical algorithm with TrivialClustering consists of paths: the nodes have different levels (the number of their interval), the rows of a node are exactly those in its interval, and edges lead only to the next level. The same holds with BallCover on points of a line, where nodes are lined up by their centres, and for MapperAlgorithm.fit_transform without a clustering, where the default overlap_frac is allowed too. So, whatever the data, a node has at most two neighbours, there are no cycles, and a connected component has one node on each level from its lowest to its highest, each joined to the next. Branches and cycles come from the clustering: with a clustering that splits an interval the graph can be a cycle.",
"all datasets, one-column lenses, parameters, random draws",
"Ranges over all datasets and parameters; users conclude from a branch or a cycle in the graph that the clustering saw one in the data.",
[S+"core.py:mapper_graph",S+"core.py:TrivialClustering",S+"cover.py:CubicalCover",S+"cover.py:BallCover",S+"learn.py:MapperAlgorithm.fit_transform"])
p("C133","Graphs over a lens with one column, with floating-point numbers",
"With floating-point numbers, both cubical covers and any clustering: if overlap_frac is at most one half, joined nodes have different cells that are neighbours (or the same) in each column, so that over a lens with one column edges lead only from an interval to the next one and there are no triangles; with TrivialClustering the graph consists of paths. (This holds if overlap_frac exceeds the rounding errors and is below one half by more than the rounding errors. With exactly one half, the rows 38, 41.625 and 45.25 and three intervals give a triangle in double precision.)",
"all datasets, lenses, clusterings, parameters, and arithmetics with a relative rounding error of at most 1/64 (double precision is one)",
"Ranges over all datasets and all ways of rounding; the failures are at single values of the lens.",
[S+"core.py:mapper_graph",S+"cover.py:BaseCubicalCover",S+"cover.py:ProximityCubicalCover",S+"cover.py:StandardCubicalCover"])
