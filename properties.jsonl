{"id": "C01", "title": "Graph reads are never stale", "statement": "For a dhg.Graph, after any sequence of public mutations (add_edges, remove_edges, add_extra_selfloop, remove_extra_selfloop, remove_selfloop, clear) interleaved in any way with any reads (e, e_both_side, num_e, A, D_v, D_v_neg_1, D_v_neg_1_2, N_v, nbr_v, deg_v, e_src/e_dst/e_weight, L, L_sym, L_rw, L_GCN), each read returns exactly what the same read would return on a freshly constructed graph holding the same vertices, edges, weights and self-loop flag. Having read something earlier never changes a later answer.", "quantifier": "every vertex count, every finite interleaving of mutations and reads, every argument (including ones that raise)", "why_tests_cant": "The number of interleavings of reads and writes is unbounded; a stale cache shows only on the particular read-write-read order that a test happens to exercise.", "anchors": ["dhg/structure/base.py: BaseGraph._clear_cache, BaseGraph._add_edge, BaseGraph._remove_edge, BaseGraph.e", "dhg/structure/graphs/graph.py: Graph.A, Graph.D_v, Graph.N_v, Graph.L, Graph.L_GCN"]}
{"id": "C02", "title": "Undirected edge set follows the operations", "statement": "After any sequence of add_edges/remove_edges calls on a dhg.Graph, the pair {a,b} is an edge with weight w exactly when replaying the calls on an abstract map from unordered pairs to weights gives w; writing an edge as (a,b) or (b,a) in any call makes no difference, and at most one weight is stored per unordered pair.", "quantifier": "every graph state, every edge list of any length with any orientation, every weight list, every merge operation", "why_tests_cant": "Requires a statement over all operation sequences and all orientations of each edge; tests fix a handful of edge lists.", "anchors": ["dhg/structure/graphs/graph.py: Graph.add_edges, Graph.remove_edges", "dhg/structure/base.py: BaseGraph._add_edge, BaseGraph._remove_edge"]}
{"id": "C03", "title": "Merging of repeated edges", "statement": "When an edge is added that already exists, its new weight is old+new for merge 'sum', max(old,new) for 'max' and (old+new)/2 for 'mean'; other edges keep their weights. With 'sum' and 'max' the final weights do not depend on the order in which the edges of one call are listed. With 'mean' they do (the result is a running pairwise average, not the arithmetic mean of all occurrences).", "quantifier": "every graph, every edge list with arbitrary repetitions, every permutation of it", "why_tests_cant": "Order independence quantifies over all permutations of all lists with repetitions.", "anchors": ["dhg/structure/base.py: BaseGraph._add_edge"]}
{"id": "C04", "title": "Edge listing is consistent", "statement": "For Graph, DiGraph and BiGraph, e returns two lists of equal length, both of length num_e; every non-loop edge is listed exactly once; the listing is exactly the stored edges, then the stored self loops, then one loop of weight 1 per vertex when the extra-self-loop flag is set.", "quantifier": "every state reachable by any sequence of public operations", "why_tests_cant": "Invariant over all reachable states.", "anchors": ["dhg/structure/base.py: BaseGraph.e, BaseGraph.num_e", "dhg/structure/graphs/graph.py: Graph.e_both_side"]}
{"id": "C05", "title": "Adjacency matrix of a Graph is the weighted symmetric adjacency of its edges", "statement": "A[i,j] equals the weight of edge {i,j} for i≠j (0 when absent); A[i,i] equals the weight of the stored self loop plus 1 if the extra-self-loop flag is set; hence A is symmetric, for every graph whose vertex ids are in range.", "quantifier": "every graph state with any number of vertices and edges, all index pairs", "why_tests_cant": "A statement about all matrices entries for graphs of every size.", "anchors": ["dhg/structure/graphs/graph.py: Graph.A, Graph.e_both_side"]}
{"id": "C06", "title": "Vertex degrees", "statement": "deg_v[i] (the diagonal of D_v) is the sum of the weights of edges incident to i with a self loop counted once; the degrees add up to twice the total weight of proper edges plus the total self-loop weight; D_v_neg_1[i] times deg_v[i] is 1 when the degree is non-zero, and D_v_neg_1[i]=0 when it is zero.", "quantifier": "every graph state", "why_tests_cant": "Identity over all graphs.", "anchors": ["dhg/structure/graphs/graph.py: Graph.deg_v, Graph.D_v, Graph.D_v_neg_1"]}
{"id": "C07", "title": "Neighbour queries agree with edges", "statement": "nbr_v(v) lists, without repetition, exactly the vertices u such that {u,v} is an edge (or v itself when it has a self loop); u is in nbr_v(v) iff v is in nbr_v(u). N_v(v, hop=k) lists exactly the vertices reachable by a walk of exactly k edges.", "quantifier": "every graph, every vertex, every hop count k>=1", "why_tests_cant": "Walk semantics for every k and every graph needs induction on k.", "anchors": ["dhg/structure/graphs/graph.py: Graph.nbr_v, Graph.N_v"]}
{"id": "C08", "title": "Combinatorial Laplacian", "statement": "L of a Graph equals degree minus adjacency of the graph with its self loops removed: it is symmetric, every row sums to zero, and for every real vector x, x^T L x equals the sum over edges {i,j} of w_ij (x_i-x_j)^2 (hence is >= 0 when weights are non-negative). Computing L leaves the graph unchanged.", "quantifier": "every graph, every vector x", "why_tests_cant": "Universally quantified over graphs and real vectors.", "anchors": ["dhg/structure/graphs/graph.py: Graph.L"]}
{"id": "C09", "title": "Symmetric normalised Laplacian", "statement": "L_sym = I - D^{-1/2} A D^{-1/2} entrywise (A and D of the graph without self loops, D^{-1/2} read as 0 for isolated vertices); for non-negative weights it is symmetric, positive semidefinite and maps D^{1/2}·1 to the indicator of isolated vertices times their value (0).", "quantifier": "every graph with non-negative weights, every vector", "why_tests_cant": "Universally quantified over graphs and vectors.", "anchors": ["dhg/structure/graphs/graph.py: Graph.L_sym"]}
{"id": "C10", "title": "Random-walk Laplacian", "statement": "L_rw = I - D^{-1}A entrywise on the graph without self loops; each row of a vertex with non-zero degree sums to 0, each row of an isolated vertex is the identity row.", "quantifier": "every graph, every row", "why_tests_cant": "All graphs of all sizes.", "anchors": ["dhg/structure/graphs/graph.py: Graph.L_rw"]}
{"id": "C11", "title": "GCN propagation matrix", "statement": "L_GCN of a Graph equals D'^{-1/2} A' D'^{-1/2} where A' is the adjacency with the extra self loops present exactly once (also when the caller had already added them) and D' its degrees; for non-negative weights it is symmetric with x^T L_GCN x <= x^T x and >= -x^T x. smoothing_with_GCN(X) = L_GCN X when drop_rate is 0.", "quantifier": "every graph with non-negative weights, every feature matrix", "why_tests_cant": "Spectral bound over all graphs and vectors.", "anchors": ["dhg/structure/graphs/graph.py: Graph.L_GCN, Graph.smoothing_with_GCN"]}
{"id": "C12", "title": "v2v message passing computes the documented aggregation", "statement": "For Graph.v2v with no explicit weights: 'sum' gives row i = sum_j A[i,j] X[j]; 'mean' gives the weighted average of neighbours (0 for isolated vertices), so for non-negative weights every output lies between the minimum and maximum of the neighbour features. Outputs at i depend only on features of neighbours of i.", "quantifier": "every graph, every feature matrix, every vertex", "why_tests_cant": "Convexity and locality are over all graphs and all real features.", "anchors": ["dhg/structure/graphs/graph.py: Graph.v2v"]}
{"id": "C13", "title": "Weighted mean aggregation is an average", "statement": "When explicit edge weights are passed with aggr='mean' (Graph.v2v, DiGraph.v2v, BiGraph.u2v/v2u, Hypergraph.v2e_aggregation/e2v_aggregation), the result should be the weighted average of the incoming messages, i.e. the weighted sum divided by the total incoming weight, so constant features stay constant.", "quantifier": "every structure, every positive weight vector, every feature matrix", "why_tests_cant": "An averaging law over all weights and features; the existing tests only compare against a copy of the same formula.", "anchors": ["dhg/structure/graphs/graph.py: Graph.v2v", "dhg/structure/graphs/directed_graph.py: DiGraph.v2v", "dhg/structure/graphs/bipartite_graph.py: BiGraph.u2v, BiGraph.v2u", "dhg/structure/hypergraphs/hypergraph.py: Hypergraph.v2e_aggregation, Hypergraph.e2v_aggregation"]}
{"id": "C14", "title": "softmax_then_sum gives convex combinations", "statement": "With aggr='softmax_then_sum', the coefficients with which the output of a receiver combines its senders are positive and sum to 1 for every receiver with at least one sender, and are proportional to exp of the edge weights.", "quantifier": "every structure, every weight vector, every receiver", "why_tests_cant": "All real weights and all structures.", "anchors": ["dhg/structure/graphs/graph.py: Graph.v2v", "dhg/structure/graphs/directed_graph.py: DiGraph.v2v", "dhg/structure/graphs/bipartite_graph.py: BiGraph.u2v, BiGraph.v2u", "dhg/structure/hypergraphs/hypergraph.py: Hypergraph.v2e_aggregation"]}
{"id": "C15", "title": "Clones are faithful and independent", "statement": "g.clone() answers every read as g does, and no later operation on the clone changes any read of g, nor vice versa, for Graph, DiGraph, BiGraph and Hypergraph.", "quantifier": "every structure state, every operation history on either copy after cloning", "why_tests_cant": "Independence is a property of all later histories; aliasing shows only on some.", "anchors": ["dhg/structure/graphs/graph.py: Graph.clone", "dhg/structure/graphs/directed_graph.py: DiGraph.clone", "dhg/structure/graphs/bipartite_graph.py: BiGraph.clone", "dhg/structure/hypergraphs/hypergraph.py: Hypergraph.clone"]}
{"id": "C16", "title": "State dictionaries and files round-trip", "statement": "from_state_dict(g.state_dict) and load(save(g)) produce a structure on which every read gives the same answer as on g; loading a file written by a different class raises; load_structure picks the class that wrote the file.", "quantifier": "every reachable state of each of the four structure classes", "why_tests_cant": "All states; a lost field shows only when that field has a non-default value.", "anchors": ["dhg/structure/graphs/graph.py: Graph.state_dict, Graph.save, Graph.load, Graph.from_state_dict", "dhg/structure/graphs/bipartite_graph.py: BiGraph.state_dict", "dhg/structure/hypergraphs/hypergraph.py: Hypergraph.state_dict", "dhg/structure/base.py: load_structure"]}
{"id": "C17", "title": "drop_edges returns a sub-structure and leaves the original alone", "statement": "g.drop_edges(r) returns a graph over the same vertices whose edges and self loops are a sub-collection of g's, each with its original weight and in the original order; edge i survives iff the i-th random draw exceeds r, so r>=1 drops everything; g itself is unchanged; an unsupported ord raises ValueError.", "quantifier": "every graph, every rate, every outcome of the random draws", "why_tests_cant": "All RNG outcomes.", "anchors": ["dhg/structure/graphs/graph.py: Graph.drop_edges", "dhg/structure/graphs/directed_graph.py: DiGraph.drop_edges", "dhg/structure/graphs/bipartite_graph.py: BiGraph.drop_edges", "dhg/structure/hypergraphs/hypergraph.py: Hypergraph.drop_hyperedges"]}
{"id": "C18", "title": "Removal undoes addition", "statement": "Removing edges deletes exactly the listed edges (in either orientation for Graph) and nothing else; removing an absent edge changes nothing; adding an edge that was absent and removing it again restores all reads; removing twice is the same as removing once.", "quantifier": "every graph state, every edge list", "why_tests_cant": "Over all states and lists.", "anchors": ["dhg/structure/graphs/graph.py: Graph.remove_edges", "dhg/structure/base.py: BaseGraph._remove_edge"]}
{"id": "C19", "title": "Failed calls leave the structure unchanged", "statement": "If add_edges/remove_edges on a Graph, DiGraph or BiGraph raises (vertex index too large, unknown merge operation), every later read answers as if the call had not been made. The same is expected of Hypergraph.add_hyperedges.", "quantifier": "every state, every failing argument", "why_tests_cant": "Error atomicity must hold at each point where an exception can be thrown, for all inputs.", "anchors": ["dhg/structure/base.py: BaseGraph._format_edges, BaseGraph._add_edge, BaseHypergraph._add_hyperedge, BaseHypergraph._merge_hyperedges"]}
{"id": "C20", "title": "Stored vertices are in range", "statement": "After any history, every endpoint stored in a Graph/DiGraph is an existing vertex (0 <= v < num_v), so every matrix read succeeds.", "quantifier": "every history, every argument", "why_tests_cant": "Invariant over histories and over all argument values including negative ones.", "anchors": ["dhg/structure/base.py: BaseGraph._format_edges", "dhg/structure/graphs/bipartite_graph.py: BiGraph._format_edges", "dhg/structure/base.py: BaseHypergraph._format_e_list"]}
{"id": "C21", "title": "Weights are paired with their edges", "statement": "add_edges(e_list, e_weight) adds every listed edge with the weight at the same position, or raises when the two lists differ in length; none is silently ignored.", "quantifier": "every pair of lists", "why_tests_cant": "All lengths of both lists.", "anchors": ["dhg/structure/base.py: BaseGraph._format_edges, BaseGraph.add_edges", "dhg/structure/graphs/graph.py: Graph.add_edges"]}
{"id": "C22", "title": "Reversing a directed graph", "statement": "After reverse_direction() on a DiGraph, (b,a) is an edge with weight w iff (a,b) was before; A becomes its transpose, in- and out-degrees and in- and out-neighbours swap, and doing it twice restores every read.", "quantifier": "every directed graph and every history of reads before the call", "why_tests_cant": "Correctness depends on what was read (cached) before; tests exercise one order.", "anchors": ["dhg/structure/graphs/directed_graph.py: DiGraph.reverse_direction"]}
{"id": "C23", "title": "Directed adjacency and degrees", "statement": "For a DiGraph A[i,j] is the weight of edge i->j; A_T is its transpose; deg_v_out[i] and deg_v_in[i] are row and column sums of A and have equal totals; u is in nbr_v_out(v) iff v is in nbr_v_in(u) iff v->u is an edge.", "quantifier": "every directed graph, all vertices", "why_tests_cant": "All graphs of all sizes.", "anchors": ["dhg/structure/graphs/directed_graph.py: DiGraph.A, DiGraph.A_T, DiGraph.D_v_in, DiGraph.D_v_out, DiGraph.N_v_in, DiGraph.N_v_out"]}
{"id": "C24", "title": "Directed message passing follows the requested direction", "statement": "DiGraph.v2v(direction='dst2src') sends along edges from target to source (row i combines the out-neighbours of i), 'src2dst' the opposite; v2v in one direction equals v2v in the other direction on the reversed graph; other directions or aggregations raise.", "quantifier": "every directed graph, every feature matrix, both aggregations", "why_tests_cant": "Universal over graphs and features.", "anchors": ["dhg/structure/graphs/directed_graph.py: DiGraph.v2v"]}
{"id": "C25", "title": "Bipartite matrices", "statement": "For a BiGraph, B[u,v] is the weight of edge (u,v), B_T its transpose, A is the symmetric (num_u+num_v) matrix with B and B_T as off-diagonal blocks and zero diagonal blocks, D_u and D_v are row and column sums of B with equal totals, and nbr_v(u)/nbr_u(v) are mutually consistent.", "quantifier": "every bipartite graph", "why_tests_cant": "All graphs of all sizes.", "anchors": ["dhg/structure/graphs/bipartite_graph.py: BiGraph.A, BiGraph.B, BiGraph.B_T, BiGraph.D_u, BiGraph.D_v, BiGraph.N_v, BiGraph.N_u"]}
{"id": "C26", "title": "switch_uv exchanges the two sides", "statement": "g.switch_uv() leaves g unchanged and returns a bipartite graph whose B is the transpose, whose U and V sizes, degrees and neighbour queries are exchanged; switching twice gives back the original reads.", "quantifier": "every bipartite graph and history", "why_tests_cant": "Over all states.", "anchors": ["dhg/structure/graphs/bipartite_graph.py: BiGraph.switch_uv"]}
{"id": "C27", "title": "Bipartite message passing directions are adjoint", "statement": "u2v 'sum' gives B^T X and v2u 'sum' gives B Y, so <v2u(Y), X> = <Y, u2v(X)>; 'mean' gives averages within the range of the neighbour features.", "quantifier": "every bipartite graph (a BiGraph listing only pairs of a left and a right vertex; all are, unless add_extra_selfloop was called and num_u < num_v), all feature matrices", "why_tests_cant": "Universal over graphs and features.", "anchors": ["dhg/structure/graphs/bipartite_graph.py: BiGraph.u2v, BiGraph.v2u"]}
{"id": "C28", "title": "Building from adjacency lists", "statement": "from_adj_list(n, lists) (Graph, DiGraph, BiGraph) has an edge from the head of each line to each later element and no other edge; lines with fewer than two entries contribute nothing.", "quantifier": "every adjacency list", "why_tests_cant": "All inputs.", "anchors": ["dhg/structure/graphs/graph.py: Graph.from_adj_list", "dhg/structure/graphs/directed_graph.py: DiGraph.from_adj_list", "dhg/structure/graphs/bipartite_graph.py: BiGraph.from_adj_list"]}
{"id": "C29", "title": "DiGraph and BiGraph reads are never stale", "statement": "The freshness law of C01 for DiGraph and BiGraph: no read depends on earlier reads, for every history of public operations.", "quantifier": "every history of mutations and reads", "why_tests_cant": "Unbounded interleavings.", "anchors": ["dhg/structure/graphs/directed_graph.py: DiGraph", "dhg/structure/graphs/bipartite_graph.py: BiGraph", "dhg/structure/base.py: BaseGraph._clear_cache"]}
{"id": "C30", "title": "Hypergraph reads are never stale", "statement": "For a dhg.Hypergraph, after any sequence of add_hyperedges, remove_hyperedges, remove_group, clear and reads (e, e_of_group, H, H_T, W_e, D_v, D_e and inverses, L_sym, L_rw, L_HGNN, nbr_e, nbr_v, globally or per group), each read answers as on a freshly built hypergraph with the same groups, hyperedges and weights - also after calls that raised.", "quantifier": "every history, every group name, every argument, including failing calls", "why_tests_cant": "Unbounded interleavings of reads, writes and failures over per-group and global caches.", "anchors": ["dhg/structure/base.py: BaseHypergraph._clear_cache, BaseHypergraph._add_hyperedge", "dhg/structure/hypergraphs/hypergraph.py: Hypergraph.add_hyperedges, Hypergraph.remove_hyperedges, Hypergraph.remove_group"]}
{"id": "C31", "title": "Hyperedges are vertex sets with one weight each", "statement": "Within a group, listing the vertices of a hyperedge in another order denotes the same hyperedge; adding an existing hyperedge merges the weights with the chosen operation (mean/sum/max) and adds no second copy; different groups may hold the same hyperedge independently.", "quantifier": "every hypergraph, every list of hyperedges, every vertex order", "why_tests_cant": "All permutations and repetitions.", "anchors": ["dhg/structure/base.py: BaseHypergraph._hyperedge_code, BaseHypergraph._merge_hyperedges, BaseHypergraph._format_e_list", "dhg/structure/hypergraphs/hypergraph.py: Hypergraph.add_hyperedges"]}
{"id": "C32", "title": "Groups are isolated", "statement": "Adding to, removing from, dropping from or deleting one group changes no read of another group; num_e is the sum of the group sizes; removing with no group name removes from all groups; removing a group makes it disappear; naming an unknown group raises.", "quantifier": "every hypergraph with any number of groups, every operation", "why_tests_cant": "Frame property over all states and operations.", "anchors": ["dhg/structure/hypergraphs/hypergraph.py: Hypergraph.add_hyperedges, Hypergraph.remove_hyperedges, Hypergraph.remove_group, Hypergraph.drop_hyperedges_of_group"]}
{"id": "C33", "title": "Incidence matrix", "statement": "H has one column per hyperedge, in the order of e, with H[v,e]=1 iff v is in hyperedge e and 0 otherwise; H_T is its transpose; for several groups it is the column concatenation in group order.", "quantifier": "every hypergraph whose hyperedges list distinct in-range vertices", "why_tests_cant": "All hypergraphs.", "anchors": ["dhg/structure/base.py: BaseHypergraph._fetch_H_of_group", "dhg/structure/hypergraphs/hypergraph.py: Hypergraph.H, Hypergraph.H_T"]}
{"id": "C34", "title": "Hypergraph degrees and weights", "statement": "deg_e[e] is the number of vertices of e; deg_v[v] is the sum of the weights of the hyperedges containing v; sum_v deg_v = sum_e w_e*|e|; the inverses are 0 exactly where the degree is 0; the global value is the per-group values combined (concatenated for edges, added for vertices).", "quantifier": "every hypergraph, per group and overall", "why_tests_cant": "All hypergraphs, any number of groups.", "anchors": ["dhg/structure/hypergraphs/hypergraph.py: Hypergraph.D_v, Hypergraph.D_e, Hypergraph.W_e, Hypergraph.deg_v, Hypergraph.deg_e, Hypergraph.D_v_neg_1, Hypergraph.D_e_neg_1"]}
{"id": "C35", "title": "Hypergraph neighbour queries", "statement": "nbr_v(e) is the vertex set of the e-th hyperedge in the order of hg.e, nbr_e(v) is the set of positions of the hyperedges containing v; v in nbr_v(e) iff e in nbr_e(v), for global numbering across groups as well as inside one group.", "quantifier": "every hypergraph, every group layout, every index", "why_tests_cant": "Index offsets between groups must be right for every group layout.", "anchors": ["dhg/structure/hypergraphs/hypergraph.py: Hypergraph.N_e, Hypergraph.N_v, Hypergraph.nbr_e, Hypergraph.nbr_v"]}
{"id": "C36", "title": "Hypergraph Laplacians", "statement": "L_HGNN = D_v^{-1/2} H W_e D_e^{-1} H^T D_v^{-1/2}, L_sym = I - L_HGNN, L_rw = I - D_v^{-1} H W_e D_e^{-1} H^T; for non-negative weights L_HGNN is symmetric positive semidefinite with x^T L_HGNN x <= x^T x; rows of L_rw of vertices with positive degree sum to 0.", "quantifier": "every hypergraph with non-negative weights, every vector", "why_tests_cant": "Spectral statement over all hypergraphs.", "anchors": ["dhg/structure/hypergraphs/hypergraph.py: Hypergraph.L_HGNN, Hypergraph.L_sym, Hypergraph.L_rw"]}
{"id": "C37", "title": "Hypergraph message passing", "statement": "v2e 'mean' gives each hyperedge the average of its vertices' features times its weight; e2v 'sum' adds, and e2v 'mean' averages, over incident hyperedges; v2v is e2v after v2e with the aggregations given by its arguments; v2v 'mean' keeps constant features constant on every vertex of positive degree.", "quantifier": "every hypergraph, every feature matrix, per group and overall", "why_tests_cant": "Universal over structures and features.", "anchors": ["dhg/structure/hypergraphs/hypergraph.py: Hypergraph.v2e, Hypergraph.v2e_aggregation, Hypergraph.v2e_update, Hypergraph.e2v, Hypergraph.e2v_aggregation, Hypergraph.v2v"]}
{"id": "C38", "title": "Group-wise and global results agree", "statement": "For a hypergraph with a single group every per-group read equals the global read; for several groups, L- and message-passing reads of one group equal those of the hypergraph consisting of that group alone.", "quantifier": "every hypergraph, every group", "why_tests_cant": "All group layouts.", "anchors": ["dhg/structure/hypergraphs/hypergraph.py: Hypergraph.H_of_group, Hypergraph.D_v_of_group, Hypergraph.v2e_of_group, Hypergraph.e2v_of_group"]}
{"id": "C39", "title": "Sub-hypergraph", "statement": "hg.subgraph(vs) relabels the chosen vertices by rank and keeps, per group, exactly the restrictions of the hyperedges that keep at least the required number of vertices, with their weights; hg is unchanged; taking all vertices gives back the same hyperedges; empty or out-of-range selections raise.", "quantifier": "every hypergraph, every vertex selection in any order with repetitions", "why_tests_cant": "All selections.", "anchors": ["dhg/structure/base.py: BaseHypergraph.subgraph, BaseHypergraph._subgraph_filter_hyperedge"]}
{"id": "C40", "title": "Clique expansion", "statement": "Graph.from_hypergraph_clique joins u≠v iff some hyperedge contains both; with weighted=True the weight is the number of hyperedges containing both (scaled by the miu argument as documented), otherwise 1; there are no self loops.", "quantifier": "every hypergraph, every miu", "why_tests_cant": "All hypergraphs.", "anchors": ["dhg/structure/graphs/graph.py: Graph.from_hypergraph_clique"]}
{"id": "C41", "title": "Star expansion and bipartite conversion", "statement": "Graph.from_hypergraph_star has num_v+num_e vertices and joins v to num_v+e iff v is in hyperedge e, with a mask marking the original vertices; BiGraph.from_hypergraph has the same incidences (in the chosen orientation); Hypergraph.from_bigraph recovers the hyperedges from it.", "quantifier": "every hypergraph", "why_tests_cant": "Round trip over all hypergraphs.", "anchors": ["dhg/structure/graphs/graph.py: Graph.from_hypergraph_star", "dhg/structure/graphs/bipartite_graph.py: BiGraph.from_hypergraph", "dhg/structure/hypergraphs/hypergraph.py: Hypergraph.from_bigraph"]}
{"id": "C42", "title": "k-hop hypergraph", "statement": "Hypergraph.from_graph_kHop(g,k) has for each vertex v the hyperedge of v and all vertices at the end of a walk of 1..k edges (exactly k edges when only_kHop), duplicates merged.", "quantifier": "every graph, every k>=1", "why_tests_cant": "Induction on k over all graphs.", "anchors": ["dhg/structure/hypergraphs/hypergraph.py: Hypergraph.from_graph_kHop, Hypergraph._e_list_from_graph_kHop"]}
{"id": "C43", "title": "Hypergraph from graph", "statement": "Hypergraph.from_graph(g) has exactly the edges of g as 2-element hyperedges (self loops as listed) with the same weights, and g still answers all reads as before.", "quantifier": "every graph", "why_tests_cant": "All graphs; argument-mutation is only visible on later reads.", "anchors": ["dhg/structure/hypergraphs/hypergraph.py: Hypergraph.from_graph"]}
{"id": "C44", "title": "HyperGCN expansion", "statement": "Graph.from_hypergraph_hypergcn adds for each hyperedge an edge between two of its vertices (those with extreme projection), with weight 1/|e| summed over hyperedges, and with mediators edges from both extremes to every other vertex of the hyperedge with weight 1/(2|e|-3); each non-trivial hyperedge contributes at least one edge; no self loops when remove_selfloop is set.", "quantifier": "every hypergraph, every feature matrix, every random projection", "why_tests_cant": "All inputs and RNG outcomes.", "anchors": ["dhg/structure/graphs/graph.py: Graph.from_hypergraph_hypergcn"]}
{"id": "C45", "title": "Vertex weights are preserved", "statement": "The vertex weights given to a Hypergraph are returned by v_weight and used by W_v, survive clone, save/load, subgraph (restricted) and drop_hyperedges, and can be assigned.", "quantifier": "every hypergraph and vertex-weight vector", "why_tests_cant": "Holds for the default all-ones weights that tests use; must hold for every vector.", "anchors": ["dhg/structure/hypergraphs/hypergraph.py: Hypergraph.v_weight, Hypergraph.W_v, Hypergraph.clone, Hypergraph.state_dict, Hypergraph.drop_hyperedges", "dhg/structure/base.py: BaseHypergraph.subgraph"]}
{"id": "C46", "title": "Arguments are not modified", "statement": "Building or extending a hypergraph from a caller's list of hyperedges leaves that list as it was.", "quantifier": "every argument list", "why_tests_cant": "Effect on the caller's data for every input shape.", "anchors": ["dhg/structure/base.py: BaseHypergraph._format_e_list"]}
{"id": "C47", "title": "State dictionaries are snapshots", "statement": "The dictionary returned by state_dict keeps the content it had when taken, whatever is done to the structure afterwards, and from_state_dict shares nothing with it.", "quantifier": "every later history", "why_tests_cant": "Aliasing over histories.", "anchors": ["dhg/structure/graphs/graph.py: Graph.state_dict, Graph.from_state_dict"]}
{"id": "C48", "title": "Message passing is equivariant under renaming vertices", "statement": "Renaming the vertices of a Graph by any permutation and permuting the features accordingly permutes the outputs of v2v (sum and mean), of L_GCN smoothing, and, in evaluation mode, of the graph layers and of the models GCN, GAT, GIN and GraphSAGE (GAT: on graphs without exactly one stored adjacency entry, where it raises).", "quantifier": "every graph, every permutation, every feature matrix", "why_tests_cant": "Over all permutations of all graphs.", "anchors": ["dhg/structure/graphs/graph.py: Graph.v2v, Graph.smoothing_with_GCN", "dhg/nn/convs/graphs/gcn_conv.py: GCNConv"]}
{"id": "C50", "title": "Remapping vertex markers", "statement": "remap_edge_list replaces markers consistently and injectively (by their string form) by 0..n-1 in sorted order, so edges are preserved up to renaming and every number below n occurs; remap_edge_lists uses one numbering for all lists.", "quantifier": "every edge list with arbitrary markers", "why_tests_cant": "All inputs.", "anchors": ["dhg/utils/structure.py: remap_edge_list, remap_edge_lists"]}
{"id": "C51", "title": "Adjacency list and edge list conversions", "statement": "adj_list_to_edge_list(edge_list_to_adj_list(es)) is a permutation of es that keeps the order of the edges of each source.", "quantifier": "every edge list", "why_tests_cant": "All lists.", "anchors": ["dhg/utils/structure.py: edge_list_to_adj_list, edge_list_to_adj_dict, adj_list_to_edge_list"]}
{"id": "C52", "title": "Remapping adjacency lists", "statement": "remap_adj_list succeeds on every adjacency list (including lines without neighbours) and preserves adjacency up to a consistent injective renaming.", "quantifier": "every adjacency list", "why_tests_cant": "All inputs including degenerate lines.", "anchors": ["dhg/utils/structure.py: remap_adj_list, remap_adj_lists"]}
{"id": "C53", "title": "split_by_num", "statement": "The masks are pairwise disjoint; each class contributes min(train_num, class size) training vertices and so on for validation and test; without test_num every remaining vertex of every class is a test vertex, so the masks cover all vertices.", "quantifier": "every labelling, all counts, every shuffle outcome", "why_tests_cant": "All RNG outcomes and label sets (including non-contiguous labels).", "anchors": ["dhg/utils/dataset_split.py: split_by_num, _idx2mask"]}
{"id": "C54", "title": "split_by_ratio", "statement": "As C53 with int(ratio*class size) per class; raises when the ratios exceed 1.", "quantifier": "every labelling, all ratios, every shuffle outcome", "why_tests_cant": "All RNG outcomes.", "anchors": ["dhg/utils/dataset_split.py: split_by_ratio"]}
{"id": "C55", "title": "User-item splits", "statement": "split_by_num_for_UI_bigraph / split_by_ratio_for_UI_bigraph partition the items of every user into train and test: no item is in both, none is lost, users without items are skipped, and at most train_num (resp. int(ratio*n)) are in train.", "quantifier": "every bipartite graph (as in C27), all counts and ratios, every shuffle outcome", "why_tests_cant": "All RNG outcomes.", "anchors": ["dhg/utils/dataset_split.py: split_by_num_for_UI_bigraph, split_by_ratio_for_UI_bigraph"]}
{"id": "C56", "title": "Negative sampling", "statement": "A training triplet from UserItemDataset has a positive item the user interacted with and a negative item the user did not, in range; test records mark exactly the user's training items as -inf and exactly the true items with 1. The dataset has one record per interaction in training, and one per user in testing.", "quantifier": "every interaction list, every random stream, every index", "why_tests_cant": "All RNG streams; includes non-termination when a user has all items.", "anchors": ["dhg/utils/dataset_wrapers.py: UserItemDataset"]}
{"id": "C57", "title": "Binomial helper", "statement": "C(n,m) is the binomial coefficient for 0<=m<=n (exact arithmetic).", "quantifier": "all n, m", "why_tests_cant": "All n,m; needs the product identity by induction.", "anchors": ["dhg/utils/math.py: C"]}
{"id": "C58", "title": "Sparse dropout", "statement": "sparse_dropout keeps the sparsity pattern, leaves kept values unchanged and replaces the others by fill_value; p=0 is the identity and p outside [0,1] raises.", "quantifier": "every sparse matrix, every p, every mask outcome", "why_tests_cant": "All RNG outcomes.", "anchors": ["dhg/utils/sparse.py: sparse_dropout"]}
{"id": "C60", "title": "Ranking metrics are in range and consistent", "statement": "precision, recall and ndcg (retrieval and recommender) lie in [0,1] for binary ground truth; k*precision@k = (number of relevant)*recall@k for every k up to the list length; recall at full length is 1 when something is relevant; ndcg is 1 for a perfect ranking.", "quantifier": "every ground truth, every scores, every k", "why_tests_cant": "Inequalities over all real score vectors.", "anchors": ["dhg/metrics/retrieval.py: precision, recall, ndcg", "dhg/metrics/recommender.py: precision, recall, ndcg"]}
{"id": "C61", "title": "Average precision, reciprocal rank and top-k", "statement": "ap/map and pr_curve honour k (only the top k positions matter); rr is the reciprocal of the rank of the first relevant item and 0 if there is none.", "quantifier": "every ground truth, scores, k", "why_tests_cant": "All inputs.", "anchors": ["dhg/metrics/retrieval.py: ap, rr, mrr, _pr_curve"]}
{"id": "C62", "title": "Batched evaluation equals whole-set evaluation", "statement": "Feeding any partition of the samples batch by batch to an evaluator and asking for the epoch result gives the mean over all samples, as one batch would; results of one epoch do not leak into the next; already returned results do not change later.", "quantifier": "every split into batches, any number of epochs", "why_tests_cant": "All partitions and histories.", "anchors": ["dhg/metrics/base.py: BaseEvaluator"]}
{"id": "C63", "title": "Classification accuracy", "statement": "accuracy is the fraction of correct predictions, in [0,1], invariant under reordering samples, 1 iff all are correct; the entries of the confusion matrix add up to the number of samples.", "quantifier": "every label and prediction vectors", "why_tests_cant": "All inputs.", "anchors": ["dhg/metrics/classification.py: accuracy, confusion_matrix"]}
{"id": "C70", "title": "G(n,p) generators", "statement": "graph_Gnp, digraph_Gnp, bigraph_Gnp and uniform_hypergraph_Gnp return structures over the requested vertices with no self loops and no repeated edges, containing exactly the candidate edges whose random draw fell below prob; prob=0 gives none and prob=1 all; invalid arguments raise.", "quantifier": "all sizes, all probabilities, every random stream", "why_tests_cant": "All RNG outcomes.", "anchors": ["dhg/random/graphs/graph.py: graph_Gnp", "dhg/random/graphs/directed_graph.py: digraph_Gnp", "dhg/random/graphs/bipartite_graph.py: bigraph_Gnp", "dhg/random/hypergraphs/hypergraph.py: uniform_hypergraph_Gnp"]}
{"id": "C71", "title": "G(n,m) generators", "statement": "graph_Gnm, digraph_Gnm, bigraph_Gnm, uniform_hypergraph_Gnm and hypergraph_Gnm, when they return, return exactly num_e distinct edges, in range, without self loops; every num_e up to the number of possible edges is accepted and larger ones are refused.", "quantifier": "all sizes, every random stream", "why_tests_cant": "All RNG streams; termination and capacity are not testable by sampling.", "anchors": ["dhg/random/graphs/graph.py: graph_Gnm", "dhg/random/graphs/directed_graph.py: digraph_Gnm", "dhg/random/graphs/bipartite_graph.py: bigraph_Gnm", "dhg/random/hypergraphs/hypergraph.py: uniform_hypergraph_Gnm, hypergraph_Gnm"]}
{"id": "C72", "title": "Fast G(n,p) generators", "statement": "graph_Gnp_fast and digraph_Gnp_fast, for every prob in [0,1] and every random stream, return a simple graph: each edge produced once, endpoints distinct and in range.", "quantifier": "all sizes, probabilities, random streams", "why_tests_cant": "All streams of geometric skips.", "anchors": ["dhg/random/graphs/graph.py: graph_Gnp_fast", "dhg/random/graphs/directed_graph.py: digraph_Gnp_fast"]}
{"id": "C80", "title": "Downloaded files are verified", "statement": "When download_and_check returns True the file exists at the path and its MD5 is the requested one, whatever the network did; a corrupted file is deleted; an existing valid file is used without any network access.", "quantifier": "every initial file system content, every sequence of network outcomes (failures, partial or corrupted bodies)", "why_tests_cant": "All failure sequences.", "anchors": ["dhg/utils/download.py: download_and_check, download_file, check_file, _retry"]}
{"id": "C81", "title": "Download failures are retried and recoverable", "statement": "HTTP failures are retried up to 3 attempts and then reported, never more requests than 3 primary plus 3 backup; after any failed or interrupted call, calling again when the network works succeeds.", "quantifier": "every sequence of outcomes, every crash point during the transfer", "why_tests_cant": "Crash points and outcomes are unbounded.", "anchors": ["dhg/utils/download.py: download_and_check, _retry"]}
{"id": "C82", "title": "Dataset items are loaded once and consistently", "statement": "data[key] always returns the preprocessed item and data.raw(key) the unprocessed one, however often and in whatever order they are requested; files are fetched and parsed at most once per item; unknown keys raise.", "quantifier": "every configuration, every order of requests", "why_tests_cant": "All access orders.", "anchors": ["dhg/data/base.py: BaseData"]}
{"id": "C83", "title": "Data pipes compose in order", "statement": "compose_pipes(f1..fn)(x) = fn(...f1(x)); norm_ft scales every non-zero row to norm 1 in the requested order and leaves zero rows zero; min_max_scaler maps onto [ft_min, ft_max] keeping order.", "quantifier": "every pipe list, every matrix", "why_tests_cant": "All inputs.", "anchors": ["dhg/datapipe/common.py: compose_pipes", "dhg/datapipe/normalize.py: norm_ft, min_max_scaler"]}
{"id": "C84", "title": "Model selection keeps the best epoch", "statement": "In an experiment with direction 'maximize' the saved model is the one of the first epoch attaining the maximum validation score, and that maximum is returned; with 'minimize' likewise for the minimum.", "quantifier": "every number of epochs, every score sequence", "why_tests_cant": "All score sequences.", "anchors": ["dhg/experiments/base.py: BaseTask.experiment"]}
{"id": "C85", "title": "Only the best trial's files remain", "statement": "After a run exactly the cached files of the best trial remain in the cache directory.", "quantifier": "every set of trials and files", "why_tests_cant": "All trial numbers (e.g. prefix clashes between 1 and 10).", "anchors": ["dhg/experiments/base.py: BaseTask._remove_cached_data"]}
{"id": "C90", "title": "Graph convolution layers compute their formulas", "statement": "GCNConv (last layer) returns L_GCN(XW+b); GINConv returns MLP((1+eps)X + sum of neighbours); GraphSAGEConv combines X with the neighbour mean; GATConv uses attention coefficients that are positive and sum to 1 over the neighbours.", "quantifier": "every graph, features, parameters", "why_tests_cant": "All inputs and parameters.", "anchors": ["dhg/nn/convs/graphs/gcn_conv.py: GCNConv", "dhg/nn/convs/graphs/gin_conv.py: GINConv", "dhg/nn/convs/graphs/gat_conv.py: GATConv", "dhg/nn/convs/graphs/graphsage_conv.py: GraphSAGEConv"]}
{"id": "C91", "title": "Hypergraph convolution layers compute their formulas", "statement": "HGNNConv returns L_HGNN(XW+b); HGNNPConv the two-stage mean v2v; UniGCNConv, UniSAGEConv and UniGINConv their published update, in particular UniGIN (1+eps)x_i + sum of hyperedge messages.", "quantifier": "every hypergraph, features, parameters", "why_tests_cant": "All inputs and parameters.", "anchors": ["dhg/nn/convs/hypergraphs/hgnn_conv.py: HGNNConv", "dhg/nn/convs/hypergraphs/hgnnp_conv.py: HGNNPConv", "dhg/nn/convs/hypergraphs/unignn_conv.py: UniGINConv, UniGCNConv, UniSAGEConv"]}
{"id": "C92", "title": "BPR loss", "statement": "BPRLoss is positive, decreases when a positive score increases and increases when a negative score increases (for the exact softplus definition).", "quantifier": "all score vectors", "why_tests_cant": "Monotonicity over reals.", "anchors": ["dhg/nn/loss.py: BPRLoss"]}
{"id": "C95", "title": "Drawing defaults", "statement": "Size, colour and strength arguments given as scalars are repeated for each vertex/edge, given as lists must have matching length or raise, and layout coordinates returned by the layout functions lie inside the canvas.", "quantifier": "every argument and structure", "why_tests_cant": "All inputs.", "anchors": ["dhg/visualization/structure/defaults.py: fill_sizes, fill_color, fill_strength", "dhg/visualization/structure/layout.py: force_layout"]}
{"id": "C64", "title": "Directed and bipartite edge sets follow the calls", "statement": "After any sequence of constructor, add_edge(s), remove_edges, add/remove_(extra_)selfloop, clear, switch/reverse, clone and drop calls, e lists exactly the ordered pairs obtained by applying the calls one by one to a finite map from ordered pairs to weights ((a,b) and (b,a) are different edges).", "quantifier": "every history of a DiGraph and of a BiGraph", "why_tests_cant": "Unbounded histories, including reads in between and the reversing operations.", "anchors": ["dhg/structure/graphs/directed_graph.py: DiGraph", "dhg/structure/graphs/bipartite_graph.py: BiGraph", "dhg/structure/base.py: BaseGraph"]}
{"id": "C65", "title": "BiGraph GCN Laplacian", "statement": "For a BiGraph with non-negative weights, L_GCN is the symmetric normalisation s_i (A + I)[i,j] s_j of its adjacency matrix with s_i the inverse square root of (row sum of A at i) + 1, and smoothing_with_GCN(X) with drop_rate 0 is L_GCN X.", "quantifier": "every history of a BiGraph whose adjacency matrix can be read, and every feature matrix with num_u + num_v rows", "why_tests_cant": "Identity over all graphs and real features.", "anchors": ["dhg/structure/graphs/bipartite_graph.py: L_GCN, smoothing_with_GCN"]}
{"id": "C49", "title": "k nearest neighbour hypergraph", "statement": "Hypergraph.from_feature_kNN(X,k) has as many vertices as X has rows and exactly one hyperedge per row v, made of v itself and k-1 nearest other rows, all of weight 1; k larger than the number of rows is refused; add_hyperedges_from_feature_kNN adds the same hyperedges to the named group only.", "quantifier": "every feature matrix, every k, every way of breaking ties that topk may choose", "why_tests_cant": "All feature matrices, in particular those with equal rows, and all tie-breaking choices.", "anchors": ["dhg/structure/hypergraphs/hypergraph.py: Hypergraph.from_feature_kNN, Hypergraph._e_list_from_feature_kNN, Hypergraph.add_hyperedges_from_feature_kNN"]}
{"id": "C66", "title": "Spectral smoothing with a strength", "statement": "smoothing(X, L, lamb) returns X + lamb * (L X) for every square matrix L with as many rows as X, and raises otherwise; with the Laplacian of a Graph, columns of X that are constant are unchanged and the total of every column is preserved.", "quantifier": "every structure, feature matrix, square matrix and strength; for the second part every history of a Graph", "why_tests_cant": "Identity over all real matrices and graphs.", "anchors": ["dhg/structure/base.py: BaseGraph.smoothing, BaseHypergraph.smoothing"]}
{"id": "C73", "title": "Custom hyperedge sizes", "statement": "hypergraph_Gnm with method 'custom' only generates hyperedges whose size has a positive entry in prob_k_list (entry i is the weight of size i+2); a list of the wrong length, a missing list and an unknown method are refused, weights summing to zero raise ZeroDivisionError.", "quantifier": "every list of non-negative weights, every number of vertices and hyperedges, every stream of draws, every enumeration order of the set", "why_tests_cant": "A statement about all random streams; a test sees one.", "anchors": ["dhg/random/hypergraphs/hypergraph.py: hypergraph_Gnm"]}
{"id": "C74", "title": "Normal features", "statement": "normal_features(labels, noise) returns one row per label and one column per distinct label; row i is noise times the standard normal draws plus 1 in the column given by the rank of label i among the distinct labels. Equal labels have equal centres, different labels different ones. A negative noise is refused.", "quantifier": "every non-empty list of labels, every non-negative noise, every table of draws", "why_tests_cant": "All label lists and all draws.", "anchors": ["dhg/random/feature.py: normal_features"]}
{"id": "C86", "title": "Loaders read back what is in the file", "statement": "load_from_txt returns, for a text file with one row per line and fields separated by commas, blanks or tabs, exactly the fields of every line after the header, converted; blank lines do not disturb it; load_from_pickle returns the whole object, the entry of a key or the entries of exactly the given keys, and raises for missing keys.", "quantifier": "every table, every choice of separators, every header, every key list", "why_tests_cant": "All tables and all separators.", "anchors": ["dhg/datapipe/loader.py: load_from_txt, load_from_pickle, ret_cast_fun"]}
{"id": "C93", "title": "Embedding regularisation", "statement": "EmbeddingRegularization(p, weight_decay)(*embs) is weight_decay/p times the sum over the embeddings of the row-averaged sum of p-th powers; it is non-negative, zero exactly for zero embeddings, and scales with t^p when all embeddings are multiplied by t.", "quantifier": "every list of non-empty embeddings, every positive p and weight_decay", "why_tests_cant": "All real embeddings and all powers, including odd ones.", "anchors": ["dhg/nn/regularization.py: EmbeddingRegularization"]}
{"id": "C94", "title": "MLP and MultiHeadWrapper", "statement": "An MLP over channels c0,...,ck in evaluation mode applies the same chain of linear maps and activations to every row of its input on its own, refuses fewer than two channels and inputs of another width; MultiHeadWrapper combines the outputs of its heads as its readout says (columns side by side, or entrywise mean, max, sum) and refuses other names.", "quantifier": "every list of at least two channels, every parameters and inputs; every number of heads and every heads returning outputs of the same shape", "why_tests_cant": "All depths, widths, inputs and parameters.", "anchors": ["dhg/nn/convs/common.py: MLP", "dhg/nn/convs/common.py: MultiHeadWrapper"]}
{"id": "C96", "title": "Recommendation models compute the documented embeddings", "statement": "Without dropout LightGCN returns for every user and item the mean over t=0..num_layers of the rows of L_GCN^t E; an embedding depends only on users and items within num_layers steps and an isolated one stays unchanged. NGCF and DHCF return the mean of the tables their layers produce one after another, where each layer combines the smoothed and the original embeddings and normalises the rows to norm at most 1.", "quantifier": "every bipartite graph (pair of hypergraphs) with non-negative weights, every tables, number of layers and layer parameters", "why_tests_cant": "All graphs, depths and tables.", "anchors": ["dhg/models/graphs/lightgcn.py: LightGCN", "dhg/models/graphs/ngcf.py: NGCF", "dhg/models/hypergraphs/dhcf.py: DHCF"]}
{"id": "C97", "title": "Models keep no memory of earlier calls", "statement": "What the forward function of a model returns for a structure and features is determined by these and the parameters: reading the structure before, calling the same or another model on it before, or calling the model on another structure before makes no difference, and calling a model leaves the structure as it was for all later calls.", "quantifier": "every graph, bipartite graph or hypergraph built through the API, every models, features and earlier calls", "why_tests_cant": "A statement about all histories of calls on shared cached structures.", "anchors": ["dhg/models/graphs", "dhg/models/hypergraphs", "dhg/models/hypergraphs/hypergcn.py: HyperGCN.forward"]}
{"id": "C98", "title": "Drawings show the structure", "statement": "A drawing shows one disc per vertex and, for graphs, one line per edge that starts on the border of the disc of the first end, ends on the border of the disc of the second and runs along the segment between the centres. The outline of a hyperedge is a closed curve of lines, each a common tangent of the circles around two consecutive corners with both circles on the same side, joined by arcs of these circles; circles drawn around a vertex for different hyperedges have different radii. Labels given are drawn.", "quantifier": "every vertex positions and sizes, every edge list, every order of drawing", "why_tests_cant": "Real-valued geometry over all positions and sizes.", "anchors": ["dhg/visualization/structure/utils.py: draw_line_edge, draw_vertex, hull_layout", "dhg/visualization/structure/geometry.py", "dhg/visualization/structure/draw.py"]}
{"id": "C99", "title": "Layout forces follow the structure", "statement": "In the force simulation behind the drawing functions the centre of an edge, to which its vertices are pulled, is the mean of the positions of its vertices; the result depends on nothing but the structure, the strengths and the initial positions; every step moves a point by a bounded amount, and the simulation ends.", "quantifier": "every structure, strengths and initial positions", "why_tests_cant": "All positions and all 400 steps of a real-valued simulation.", "anchors": ["dhg/visualization/structure/simulator.py: Simulator", "dhg/visualization/structure/layout.py: force_layout, bipartite_force_layout", "dhg/visualization/structure/utils.py: edge_list_to_incidence_matrix"]}
{"id": "C67", "title": "Structures and features may be moved between devices", "statement": "After g.to(d) every tensor of the structure - cached before or computed later - is on device d, whatever was read, changed or moved before; message passing and smoothing accept features on any device, move the structure to the device of the features and return a result there. No exception about mixed devices is raised.", "quantifier": "every sequence of reads, changes and moves, every device, every tensor attribute and message passing function of Graph, DiGraph, BiGraph and Hypergraph", "why_tests_cant": "A statement about all histories of cached reads and moves; needs several devices.", "anchors": ["dhg/structure/base.py: BaseGraph.to, BaseHypergraph.to", "dhg/structure/graphs/graph.py: vars_for_DL, to, v2v", "dhg/structure/graphs/directed_graph.py: A, v2v", "dhg/structure/graphs/bipartite_graph.py: vars_for_DL, smoothing_with_GCN", "dhg/structure/hypergraphs/hypergraph.py: vars_for_DL, H_of_group, v2e, e2v"]}
{"id": "C68", "title": "BGNN alternates between the two sides", "statement": "BGNN_Adv and BGNN_MLP (evaluation mode) compute alternately the features of the left vertices from the latest features of the right ones and the other way round: weighted sums over the edges of linear images, tanh, and for BGNN_MLP a two layer decoder. All results lie strictly between -1 and 1. The channels of the layers the constructors build fit together. train_with_cascaded returns exactly what forward of the trained model returns, whatever losses and optimizers do, and leaves the graph as it was. Every layer and both inputs matter for the result.", "quantifier": "every bipartite graph with non-negative weights, every number of layers, parameters and features; every training procedure", "why_tests_cant": "All graphs, depths, parameters and training procedures.", "anchors": ["dhg/models/graphs/bgnn.py: BGNN_Adv, BGNN_MLP, layer_depth, train_with_cascaded"]}
{"id": "C75", "title": "Pictures of embeddings", "statement": "draw_in_euclidean_space, draw_in_poincare_ball and the animations show one point per embedding, in order, with the given labels as colours, scaled so that every axis fills the interval from 0.1 to 0.9; dimensions other than 2 and 3 are refused.", "quantifier": "every embeddings and labels, every answer of the dimension reduction", "why_tests_cant": "Real-valued geometry over all embeddings; the reduction is random.", "anchors": ["dhg/visualization/feature/visualization.py: draw_in_euclidean_space, draw_in_poincare_ball, animation_of_3d_poincare_ball, animation_of_3d_euclidean_space", "dhg/visualization/feature/utils.py: plot_2d_embedding, plot_3d_embedding, make_animation, normalize"]}
{"id": "C76", "title": "Projection to the Poincare ball", "statement": "project_to_poincare_ball maps every embedding to a point strictly inside the ball, in the direction of its reduced and rescaled coordinates, at the distance of the exponential map of curvature; only the directions of the embeddings matter; unknown methods, other dimensions and zero embeddings are refused.", "quantifier": "every embeddings, every answer of the dimension reduction", "why_tests_cant": "Real-valued geometry over all embeddings.", "anchors": ["dhg/visualization/feature/utils.py: project_to_poincare_ball, expmap0, logmap0, proj"]}
{"id": "C69", "title": "Seeds make runs reproducible", "statement": "After dhg.random.set_seed(s) everything drawn from random, numpy and torch is determined by s, whatever was drawn or set before; seed() answers the seed that is in force; a seed that is refused changes nothing; the seed an experiment logs is the seed its sampler uses.", "quantifier": "every seed, every program of draws, seed() and set_seed calls, every time", "why_tests_cant": "Quantifies over all earlier states of three generators and over the clock.", "anchors": ["dhg/random/_seed.py: seed, set_seed", "dhg/experiments/base.py: run"]}
{"id": "C77", "title": "Redirected output", "statement": "After simple_stdout2file(p) everything the program prints appears on the terminal as before and is appended to p, at once, in order and once, whatever other files are attached; files that are not attached stay as they are; a path without an existing directory is refused without effect.", "quantifier": "every sequence of prints and redirections, every file system", "why_tests_cant": "All histories of buffered writes and redirections.", "anchors": ["dhg/utils/logging.py: Logger, simple_stdout2file"]}
{"id": "C78", "title": "Vertex classification uses each label for its own purpose", "statement": "In a vertex classification task the labels of vertices outside the training and validation masks influence neither the selected model, structure and score nor the cached files; the score is the validation metric on exactly the vertices of val_mask, and validating the best model on the best structure again gives the score reported; the test result is, for every metric, its value on exactly the vertices of test_mask for the best model, and is reported at the end of the run.", "quantifier": "every model, training procedure, data, masks, metrics and number of trials", "why_tests_cant": "Non-interference between labels and results, over all models and training procedures.", "anchors": ["dhg/experiments/vertex_classification.py: train, validate, test", "dhg/experiments/base.py: experiment, run"]}
{"id": "C79", "title": "Recommender tasks score every user once", "statement": "Validation and test of a recommender task score every user of the loader exactly once, with the inner products of the embeddings as ratings and minus infinity for the items of the user's training set, and return the mean over all users whatever the batches; they work on every device and without a structure; the choice of the best model does not use the data it is tested on; training uses every batch of every epoch exactly once, in order, on the structure of the trial.", "quantifier": "every model, loader, evaluator history, device", "why_tests_cant": "All models, batches and histories of the stateful evaluator.", "anchors": ["dhg/experiments/recommender.py: train, validate, test", "dhg/experiments/base.py: experiment, run", "dhg/utils/dataset_wrapers.py: UserItemDataset"]}
{"id": "C87", "title": "Study directories", "statement": "A task created with overwrite gets an empty study directory with its own log and changes nothing outside of it; without overwrite what is in the study directory is kept and the log is continued; a work directory that cannot be created is refused; tasks do not disturb each other.", "quantifier": "every file system, work root, name and time", "why_tests_cant": "All contents of the file system and all sequences of tasks.", "anchors": ["dhg/experiments/base.py: BaseTask.__init__", "dhg/utils/logging.py: default_log_formatter"]}
{"id": "C59", "title": "Building evaluators", "statement": "build_evaluator(task, configs, i) returns an evaluator exactly for the three documented tasks, when every configuration names a metric documented for the task (alone or as the only key of a dictionary with its parameters) and i is the index of a configuration; other tasks raise ValueError. validate gives the value of the i-th metric with its parameters; a parameter the metric does not have raises TypeError there. test gives one entry for each metric, under its name and in order.", "quantifier": "all task names, all lists of configurations, all indices, all labels and predictions", "why_tests_cant": "A test tries some names; the claim excludes that any other name or form is accepted, and fixes which metric is used for every list of configurations.", "anchors": ["dhg/metrics/__init__.py:15-37", "dhg/metrics/base.py:12-96", "dhg/metrics/base.py:167-183", "dhg/metrics/classification.py:136-159", "dhg/metrics/recommender.py:257-262"]}
{"id": "C88", "title": "Hypergraph results are equivariant under renaming vertices", "statement": "Building a hypergraph from the same calls with the vertices renamed by a permutation of 0..n-1 gives the same hyperedges under the new names, with the same weights and in the same order; incidence matrix, vertex degrees, Laplacians, message passing and the hypergraph models in evaluation mode give the same numbers, moved to the new names of the vertices; hyperedge results do not change.", "quantifier": "every permutation, every construction and history of documented calls, every group, every features and parameters; for the Laplacians and HGNN no negative weight, for UniGCN positive weights and no empty hyperedge, for UniGAT not exactly one incidence", "why_tests_cant": "Quantifies over all permutations and all histories; a test tries a few of both.", "anchors": ["dhg/structure/base.py: BaseHypergraph._add_hyperedge, _format_e_list", "dhg/structure/hypergraphs/hypergraph.py: add_hyperedges, remove_hyperedges, H, D_v, L_HGNN, L_sym, L_rw, v2e, v2v", "dhg/nn/convs/hypergraphs", "dhg/models/hypergraphs"]}
{"id": "C89", "title": "The hypergraph of a graph has half of its Laplacians", "statement": "For a graph with at least one edge and no self loop, Hypergraph.from_graph(g) has the vertex degrees of g and hyperedges of degree 2; if no weight is negative then, in the rows of the vertices of nonzero degree, its L_sym and L_rw are half of L_sym and L_rw of g and L_HGNN is the identity minus half of L_sym of g, while in the other rows the Laplacians of both are the identity; Graph.from_hypergraph_clique turns it back into g with weights 1.", "quantifier": "every graph built by documented calls, without self loops and with at least one edge; all non-negative weights; both settings of weighted, every miu", "why_tests_cant": "An identity between two independent pieces of code (graph and hypergraph Laplacians) over all graphs and real weights.", "anchors": ["dhg/structure/hypergraphs/hypergraph.py: Hypergraph.from_graph, L_sym, L_rw, L_HGNN, deg_v, deg_e", "dhg/structure/graphs/graph.py: Graph.L_sym, L_rw, deg_v, from_hypergraph_clique"]}
{"id": "C100", "title": "Shapes of message passing", "statement": "A message passing or smoothing call that returns was given one feature row per sender, and its result has one row per receiver and the columns of its input, whatever the aggregation, the edge weights, the dropout rate and the random choices are; features with another number of rows are refused, not broadcast. Senders and receivers are the vertices (Graph, DiGraph in both directions, hypergraph v2v, smoothing), the two sides (BiGraph u2v, v2u) or the vertices and the hyperedges of the hypergraph or of a group (v2e, e2v and their steps).", "quantifier": "every structure after every history, every group, features, aggregation, weights, dropout", "why_tests_cant": "Quantifies over all sizes, histories, arguments and random choices.", "anchors": ["dhg/structure/graphs/graph.py: v2v, smoothing_with_GCN", "dhg/structure/graphs/directed_graph.py: v2v", "dhg/structure/graphs/bipartite_graph.py: u2v, v2u, smoothing_with_GCN", "dhg/structure/hypergraphs/hypergraph.py: v2e_aggregation, v2e_update, v2e, e2v_aggregation, e2v, v2v, smoothing_with_HGNN"]}
{"id": "C101", "title": "Forces of the structure layout", "statement": "force_layout and bipartite_force_layout move the vertices by the forces the drawing functions are documented to use: a spring of length 0.1 from every vertex to the mean of each of its edges, an inverse-square push from every other vertex, an inverse-square push between the means of the edges (if given) on their vertices, and a pull to the centre of the layout (to its own side's centre for bipartite structures). The k-th step is reduced by 0.999^k, cut to 0.1 in each coordinate and doubled; the simulation ends after the first step whose moves are below 0.001 together, or after 400 steps; then both coordinates are stretched to [0.1, 0.9]. The call succeeds exactly when there is a vertex, the edges have vertices in range, no edge is empty and nothing meets on the way; the layout does not depend on the numbering of vertices and edges.", "quantifier": "every number of vertices, edge list, strengths, start positions, centre", "why_tests_cant": "Quantifies over all edge lists, real strengths and start positions and up to 400 steps of an iterated real function; the order independence quantifies over all permutations.", "anchors": ["dhg/visualization/structure/layout.py: force_layout", "dhg/visualization/structure/layout.py: bipartite_force_layout", "dhg/visualization/structure/simulator.py: Simulator"]}
{"id": "C102", "title": "Models are made of their layers", "statement": "The output of each model is that of its layers called one after another by a user on the same structure: GCN, GraphSAGE, HGNN, HGNNP, HNHN, UniGCN, UniSAGE and UniGIN apply each layer to the result of the previous one; GAT and UniGAT call every head on the same input, put the outputs side by side in the order of the heads and call the output layer on this; GIN adds the linear predictions of the input and of the output of every layer; HyperGCN in fast mode makes one graph from its first input and uses it in all layers and later calls, otherwise each layer makes its own graph.", "quantifier": "every structure after every history, every list of layers, parameters, input", "why_tests_cant": "Quantifies over all structures with all states of their caches, all depths, parameters and inputs.", "anchors": ["dhg/models/graphs/gcn.py: GCN.forward", "dhg/models/graphs/gat.py: GAT.forward", "dhg/models/graphs/gin.py: GIN.forward", "dhg/models/graphs/graphsage.py: GraphSAGE.forward", "dhg/models/hypergraphs/hgnn.py: HGNN.forward", "dhg/models/hypergraphs/hgnnp.py: HGNNP.forward", "dhg/models/hypergraphs/hnhn.py: HNHN.forward", "dhg/models/hypergraphs/unignn.py: UniGAT.forward", "dhg/models/hypergraphs/hypergcn.py: HyperGCN.forward"]}
{"id": "C103", "title": "Sizes, colours, labels and strengths belong to their elements", "statement": "In the pictures of draw_graph, draw_digraph, draw_bigraph and draw_hypergraph, the size, line width, colour and label given for a vertex are those of its disc, the line width, colour and fill colour given for an edge are those of its line or outline, as multiples of defaults that depend on the numbers of vertices and edges only, are positive and shrink when these grow; the strengths given are factors of the forces of the layout, and the font size is a factor of the size of the labels.", "quantifier": "every number of vertices, edge list, every documented form of the arguments (number, list, None), start positions, hull function", "why_tests_cant": "Quantifies over all sizes, edge lists, argument lists and real factors; a test looks at some pictures.", "anchors": ["dhg/visualization/structure/draw.py: draw_graph, draw_digraph, draw_bigraph, draw_hypergraph", "dhg/visualization/structure/defaults.py", "dhg/visualization/structure/utils.py: draw_line_edge, draw_circle_edge, draw_vertex, hull_layout"]}
{"id": "C104", "title": "The dataset classes hold what their documentation lists", "statement": "Each class of dhg.data offers exactly the items listed in its documentation, in that order, and refuses other keys; the numbers among them are the documented ones; data[key] of every other item is what the loader and the pipes make of a file with the recorded MD5 sum and has the documented type; asking for one item leaves the files of all other items and of the other datasets below the same data_root alone; and no two items of a dataset are the same file twice, in particular training, validation and test masks differ.", "quantifier": "every dataset class and item, every sequence of requests before, network, file system, data_root, checksum function and behaviour of the unpickler", "why_tests_cant": "A test downloads some items once from the real server; it cannot see that a wrong file is never handed out, and needs the files themselves.", "anchors": ["dhg/data/*.py: all classes and their docstrings", "dhg/data/base.py: __init__, content, needs_to_load, __getitem__, raw, fetch_files"]}
{"id": "C105", "title": "Results depend on the edges and weights only, not on the order or the calls by which they were added", "statement": "If two graphs, directed graphs or bipartite graphs on the same vertices list the same weighted edges, in whatever order, then every read other than the listing itself (e, e_both_side) returns exactly the same result or raises the same error: matrices, degrees, neighbours, edge vectors, Laplacians, smoothing and message passing. For the reads of Graph based on L_GCN the two must also agree on whether extra self loops were asked for. Two hypergraphs, or groups of them, with the same weighted hyperedges in any order and any division into groups have the same vertex degrees and Laplacians and the same message passing from vertices to vertices; what belongs to single hyperedges (deg_e, nbr_e, hyperedge features) moves along with them. And two structures that are equal in this sense remain so when the same further calls are made on both.", "quantifier": "all pairs of structures obtained by any calls, all reads with all their arguments, all further histories", "why_tests_cant": "The number of orders and of histories leading to the same edges grows factorially; a test compares a few.", "anchors": ["dhg/structure/graphs/*.py", "dhg/structure/hypergraphs/hypergraph.py", "dhg/structure/base.py"]}
{"id": "C106", "title": "Changing a returned list or matrix in place does not affect structures", "statement": "Whatever a program writes into the lists and matrices it got from the properties of graphs, directed graphs, bipartite graphs and hypergraphs, every structure holds the same vertices, edges, weights and flags as without the writes, and answers every read the same. (Full statement; the second half is false for the structure whose own cached result was written to, until its next change: properties return the cached object itself. It holds for every other structure, including clones made before and structures derived from it, and again for the structure itself after a change that clears the cache.)", "quantifier": "all programs made of constructor calls, mutating calls, reads, clones, derived structures, kept results and writes, for each of the four classes", "why_tests_cant": "A test can edit one returned list and look at a few properties; which of the other objects and later answers may be affected depends on the whole history of the program.", "anchors": ["dhg/structure/base.py:283-291", "dhg/structure/graphs/*.py", "dhg/structure/hypergraphs/hypergraph.py", "dhg/structure/base.py:433-438"]}
{"id": "C107", "title": "Changing a list of vertex weights outside a hypergraph does not affect the hypergraph", "statement": "Assigning to entries of a list that was given to Hypergraph(v_weight=...) or returned by v_weight changes no answer of any hypergraph. (Full statement; false for v_weight and W_v of the hypergraphs that use the list, since the constructor keeps and the property returns the list itself; W_v computed before is not updated. All other answers, and the vertices, groups and hyperedges, are never affected, and hypergraphs that do not use a changed list are not affected at all.)", "quantifier": "all programs made of lists, constructor calls with and without lists, mutating calls, reads, clones, derived hypergraphs, kept lists and assignments", "why_tests_cant": "A test sees one list and one hypergraph; which hypergraphs share a list depends on the whole program, and independence of all other reads is a statement about all of them in every state.", "anchors": ["dhg/structure/hypergraphs/hypergraph.py:38-45", "dhg/structure/hypergraphs/hypergraph.py:507-511", "dhg/structure/hypergraphs/hypergraph.py:808-821", "dhg/structure/base.py:769-770"]}
{"id": "C108", "title": "A list of hyperedges can be used for several calls", "statement": "A program that keeps lists and tuples of hyperedges, passes them to constructors, add_hyperedges and remove_hyperedges of any number of hypergraphs, and changes them in between, gets the same hypergraphs and the same answers as if every call were given a copy; and the kept objects always hold the hyperedges the program wrote, each in its place, as they were written or as the ascending tuple of the same vertices.", "quantifier": "all programs made of argument objects, constructor calls, adding and removing calls with kept or copied arguments, other calls, reads, clones, derived hypergraphs and changes of the lists", "why_tests_cant": "The calls overwrite the list they are given, so a later call sees what an earlier one left; a test tries one sequence of calls.", "anchors": ["dhg/structure/base.py:488-504", "dhg/structure/hypergraphs/hypergraph.py:319-350", "dhg/structure/hypergraphs/hypergraph.py:417-440"]}
{"id": "C109", "title": "Making a hypergraph of the listed edges of a structure leaves the structure as it was", "statement": "Hypergraph(n, g.e[0], ...) for a structure g of any class gives the hypergraph of the listed edges, and no later call on g or read of g tells that its list was used. (Full statement; it is false for directed and bipartite graphs: the list is the one g keeps, and the constructor sorts its pairs in place, so g then lists edges that were turned round, and so does its adjacency matrix.)", "quantifier": "every graph, directed graph, bipartite graph and hypergraph with any history, every constructor argument, every later history", "why_tests_cant": "Two classes share an object through a cache; a test of either class alone does not show it, and with ascending pairs nothing happens.", "anchors": ["dhg/structure/base.py:279-291", "dhg/structure/base.py:502-503", "dhg/structure/hypergraphs/hypergraph.py:513-537"]}
{"id": "C110", "title": "Smoothing does not amplify features", "statement": "With weights that are not negative, smoothing_with_GCN of a graph or bipartite graph and smoothing_with_HGNN of a hypergraph (all groups or one) never increase the sum of the squares of a feature over the vertices, whatever the number of times they are applied; for a graph the feature holding the square roots of the degrees is left unchanged, so the bound is sharp.", "quantifier": "every structure with any history and non-negative weights, every feature matrix, every number of layers; for hypergraphs: hyperedges of distinct existing vertices and at least one hyperedge group", "why_tests_cant": "A spectral bound over all structures and all real features; a test sees a few vectors, on which a matrix of larger norm also shrinks.", "anchors": ["dhg/structure/graphs/graph.py:622-652", "dhg/structure/graphs/bipartite_graph.py:601-639", "dhg/structure/hypergraphs/hypergraph.py:1171-1241"]}
{"id": "C111", "title": "Averages stay in the range of what is averaged", "statement": "With weights that are not negative, v2v(aggr='mean') of a graph, a directed graph (both directions) or a hypergraph (all groups or one) gives every vertex of nonzero degree a value between the least and the largest value of the vertices it receives from, and 0 to the others; so after any number of layers a range that contains 0, or any range when no degree is 0, is not left.", "quantifier": "every structure with any history and non-negative weights, every feature matrix, every number of layers; for hypergraphs: hyperedges of distinct existing vertices and at least one hyperedge group", "why_tests_cant": "An inequality between all weights and all features; tests compare against a copy of the formula.", "anchors": ["dhg/structure/graphs/graph.py:654-705", "dhg/structure/graphs/directed_graph.py:532-639", "dhg/structure/hypergraphs/hypergraph.py:1243-1699"]}
{"id": "C112", "title": "Ranking metrics see the order of the scores only", "statement": "If no two scores of a sample are equal, then precision, recall, ndcg, ap, map, rr, mrr and pr_curve give the same result (or raise the same error) when the scores are changed in a way that keeps their order, and when the items of a sample, marks and scores together, come in another order; whatever torch.argsort does. With equal scores the result may depend on the order of the items.", "quantifier": "every ground truth, every two score tensors that rank alike, every argument of the metrics, every two sorting functions", "why_tests_cant": "All monotone changes of all scores and all orders of the items; a test sees single score lists.", "anchors": ["dhg/metrics/retrieval.py:17-448", "dhg/metrics/recommender.py:24-178"]}
{"id": "C113", "title": "Message passing and smoothing are linear in the features", "statement": "Every aggregation of messages (v2v, u2v, v2u, v2e, e2v and their halves, with any aggregation, explicit weights and the same dropped messages) and every smoothing call maps a * X + b * X' to a times the result for X plus b times the result for X', for all structures with any history; if it raises an error for X, it raises the same error for every other feature matrix of that shape. So features of different columns, and sums of features, can be propagated separately.", "quantifier": "every structure with any history, every two feature matrices of the same shape, all factors, all arguments of the calls", "why_tests_cant": "All real feature matrices and all structures; a test compares single inputs, for which a clamp, an offset or a rescaling that depends on the features need not show.", "anchors": ["dhg/structure/graphs/graph.py:567-705", "dhg/structure/graphs/directed_graph.py:532-639", "dhg/structure/graphs/bipartite_graph.py:598-747", "dhg/structure/hypergraphs/hypergraph.py:1079-1699", "dhg/structure/base.py:324-335", "dhg/structure/base.py:999-1010"]}
{"id": "C114", "title": "Moving relevant items up does not make a ranking worse", "statement": "If the scores of a sample are changed such that no relevant item has more items above it than before, then precision, recall, ndcg, ap, map, rr and mrr do not decrease, for the sample and in the mean over the samples. (Full statement; false for rr and mrr with a limit k: the value is the mean over all relevant places within the limit, so that a second relevant item among the first k lowers it. True for them without a limit.)", "quantifier": "every ground truth with non-negative marks, every two score tensors without equal scores of which the second ranks no relevant item lower, every k > 0, ratio, method, sorting function", "why_tests_cant": "Quantifies over all pairs of rankings; a test compares metric values of single rankings.", "anchors": ["dhg/metrics/retrieval.py:45-330", "dhg/metrics/recommender.py:53-178"]}
{"id": "C115", "title": "Directed hyperedges: counts and incidence matrices follow the calls", "statement": "A BaseHypergraph has, in every group, exactly the directed hyperedges (source vertices, target vertices) that add_hyperedges, remove_hyperedges and clear have left there, in the order of their first addition and without regard to the order in which the vertices of a side are written. num_v, num_e, num_e_of_group, num_groups, group_names, v report them, and entry (v, e) of H_v2e (H_e2v), for a group or all groups, is the number of times v is a source (target) of e; reads in between change nothing. A vertex that does not exist makes the matrices raise, an unknown group raises AssertionError. (Full statement, for all calls; false after a call that raised in the middle: it leaves old matrices next to new hyperedges. A list of hyperedges without weights cannot be used for two calls, nor as sources and targets of one call.)", "quantifier": "every number of vertices, every sequence of calls and reads, every group and side", "why_tests_cant": "Quantifies over all interleavings of calls and reads; a test checks the matrices after one sequence.", "anchors": ["dhg/structure/base.py:367-381", "dhg/structure/base.py:423-438", "dhg/structure/base.py:506-566", "dhg/structure/base.py:605-693", "dhg/structure/base.py:794-956"]}
{"id": "C116", "title": "Directed hyperedges: weights of hyperedges and connections", "statement": "A directed hyperedge is stored with the weight given for it, and with the weight given for each of its connections (one if none is given), attached to the right vertex in whatever order the vertices are written; other hyperedges and groups are left alone. If it is added again, its weight and the weights of its connections are combined by merge_op (mean, sum, max, min). W_v, W_e, R_v2e, R_e2v show the weights. (Full statement; false: merging replaces the weights of the connections by a single number, so that a third addition raises; min is refused; the four matrices always raise.)", "quantifier": "every state of the object, every arguments of the call, every position in the call", "why_tests_cant": "Quantifies over all weights and all orders of vertices; the defect with the third addition needs three calls with the same hyperedge.", "anchors": ["dhg/structure/base.py:470-485", "dhg/structure/base.py:506-539", "dhg/structure/base.py:568-603", "dhg/structure/base.py:605-664", "dhg/structure/base.py:875-901", "dhg/structure/base.py:958-996"]}
{"id": "C117", "title": "Directed hyperedges: removal removes what is listed", "statement": "remove_hyperedges removes from the group exactly the listed hyperedges, in whatever order their vertices are written, and leaves the other hyperedges and the other groups with their weights; without a group name it removes them from all groups; one hyperedge may be given as two flat lists. (Full statement; false: without a group name the call always raises, and so it does for two flat lists of different lengths.)", "quantifier": "every object built by accepted calls, every lists, every group", "why_tests_cant": "Quantifies over all objects and all lists of hyperedges.", "anchors": ["dhg/structure/base.py:666-693", "dhg/structure/base.py:487-504"]}
{"id": "C118", "title": "Good arguments are accepted, vertices that do not exist are refused", "statement": "add_edges and remove_edges of Graph, DiGraph and BiGraph, and their constructors, accept every list of edges between existing vertices (with a known merge operation and with weights as documented) and raise AssertionError, not another exception, if a vertex does not exist; a list without edges has no effect; from_adj_list accepts an adjacency list exactly if all vertices of its edges exist; add_hyperedges of Hypergraph refuses vertices that do not exist. (Full statement; false: negative numbers are accepted, removing an empty list raises IndexError, one weight for a list of edges raises, Hypergraph checks no vertices.)", "quantifier": "every state of the object, every list of edges, every weights, every merge operation", "why_tests_cant": "Quantifies over all states and all arguments; a test calls with a few.", "anchors": ["dhg/structure/base.py: BaseGraph._format_edges", "dhg/structure/graphs/graph.py: Graph.add_edges, Graph.remove_edges, Graph.from_adj_list", "dhg/structure/graphs/directed_graph.py: DiGraph.add_edges, DiGraph.remove_edges, DiGraph.from_adj_list", "dhg/structure/graphs/bipartite_graph.py: BiGraph._format_edges, BiGraph.add_edges, BiGraph.remove_edges, BiGraph.from_adj_list", "dhg/structure/base.py: BaseHypergraph._format_e_list"]}
{"id": "C119", "title": "The Laplacians see the connected components", "statement": "With positive weights, L x = 0 for a Graph exactly if x has one value on each connected component; so the graph is connected exactly if only the constant functions have L x = 0. For L_rw, and for L_sym after scaling with D^{-1/2}, of a Graph and of a Hypergraph that has a group, the same holds of the functions that are 0 at the vertices without neighbours (in no hyperedge). The vectors left unchanged by L_HGNN are those with L_sym y = 0.", "quantifier": "every graph and hypergraph built through the interface with positive weights, every vector; for hypergraphs: hyperedges of distinct existing vertices and at least one hyperedge group", "why_tests_cant": "Equivalence over all vectors and all structures; connectivity is a statement about paths of any length.", "anchors": ["dhg/structure/graphs/graph.py: Graph.L, Graph.L_sym, Graph.L_rw", "dhg/structure/hypergraphs/hypergraph.py: Hypergraph.L_sym, Hypergraph.L_rw, Hypergraph.L_HGNN"]}
{"id": "C120", "title": "A network of k layers sees k steps", "statement": "What a stack of message passing calls (v2v with any aggregation, weights and drop rate, smoothing_with_GCN/HGNN, v2e and e2v) with any row-wise functions in between computes at a vertex depends only on the features of the vertices at most k edges (hyperedges, arcs against the direction of the messages) away, where k is the number of calls; so it never leaves the connected component. Changing the features anywhere else does not change the row.", "quantifier": "every Graph, DiGraph, BiGraph and Hypergraph built through the interface, every sequence of calls and row-wise functions, every two feature matrices that agree on the neighbourhood", "why_tests_cant": "Sequences of any length over any structure and all changes of the features.", "anchors": ["dhg/structure/graphs/graph.py: Graph.v2v, Graph.smoothing_with_GCN", "dhg/structure/graphs/directed_graph.py: DiGraph.v2v", "dhg/structure/graphs/bipartite_graph.py: BiGraph.u2v, BiGraph.v2u", "dhg/structure/hypergraphs/hypergraph.py: Hypergraph.v2e, Hypergraph.e2v, Hypergraph.v2v, Hypergraph.smoothing_with_HGNN"]}
{"id": "C121", "title": "Edits far away do not change a row", "statement": "Adding or removing edges of a Graph, in any number of calls, none of them at a vertex within k steps of i, does not change what a network with k message passing calls (sum or mean v2v, smoothing_with_GCN, no dropout) computes at i; more generally two graphs with the same weights at these vertices give the same row. Adding one edge {a,b} with weight w (merged by adding) changes the result of v2v with aggr='sum' by exactly w X_b at a and w X_a at b. In a DiGraph the edge (a,b) changes it by w X_a at b from sources to targets and by w X_b at a from targets to sources; in a BiGraph u2v by w X_a at b and v2u by w X_b at a. Removing a listed edge takes exactly these amounts away. The same holds for a Hypergraph with add_hyperedges and remove_hyperedges, v2v and smoothing_with_HGNN: hyperedges without a vertex within k steps of i do not matter at i.", "quantifier": "every Graph and Hypergraph built through the interface, every network of such calls and row-wise functions, every list of edits away from the neighbourhood; for hypergraphs: hyperedges of distinct existing vertices and at least one hyperedge group", "why_tests_cant": "All graphs, all histories of edits, networks of any depth.", "anchors": ["dhg/structure/graphs/graph.py: Graph.add_edges, Graph.remove_edges, Graph.v2v, Graph.smoothing_with_GCN", "dhg/structure/hypergraphs/hypergraph.py: Hypergraph.add_hyperedges, Hypergraph.remove_hyperedges, Hypergraph.v2v, Hypergraph.smoothing_with_HGNN"]}
{"id": "C122", "title": "Message passing back is the transpose of message passing forth", "statement": "With aggr='sum' v2v of a Graph and of a Hypergraph, smoothing_with_GCN and smoothing_with_HGNN are symmetric operators; v2v of a DiGraph from targets to sources is the transpose of v2v from sources to targets; e2v of features multiplied by the hyperedge weights is the transpose of v2e. So the gradient of a message passing call with respect to the features is a message passing call.", "quantifier": "every structure built through the interface, every two feature matrices; for hypergraphs: hyperedges of distinct existing vertices and at least one hyperedge group", "why_tests_cant": "An identity between sums over all features of all structures.", "anchors": ["dhg/structure/graphs/graph.py: Graph.v2v, Graph.smoothing_with_GCN", "dhg/structure/graphs/directed_graph.py: DiGraph.v2v", "dhg/structure/hypergraphs/hypergraph.py: Hypergraph.v2e, Hypergraph.e2v, Hypergraph.v2v, Hypergraph.smoothing_with_HGNN"]}
{"id": "C123", "title": "What message passing conserves", "statement": "With aggr='sum' the total of the features the receivers get is the total of the senders' features, each counted as often as the degree of its sender says: v2v of a Graph (deg_v), v2v of a DiGraph (deg_v_out of the senders from sources to targets, deg_v_in from targets to sources), u2v and v2u of a BiGraph (deg_u, deg_v), v2e of a Hypergraph (deg_v) and e2v (deg_e, the number of vertices of the hyperedge). With aggr='mean' and non-negative weights the degree-weighted total after the call (degrees of the receivers) is the degree-weighted total before (degrees of the senders), for Graph, DiGraph, BiGraph and the v2v of a Hypergraph. smoothing_with_GCN conserves the total weighted by the square roots of the degrees.", "quantifier": "every structure built through the interface, every feature matrix, every column; for hypergraphs: hyperedges of distinct existing vertices and at least one hyperedge group", "why_tests_cant": "An identity between sums over all vertices for all structures and features.", "anchors": ["dhg/structure/graphs/graph.py: Graph.v2v, Graph.smoothing_with_GCN", "dhg/structure/graphs/directed_graph.py: DiGraph.v2v", "dhg/structure/graphs/bipartite_graph.py: BiGraph.u2v, BiGraph.v2u", "dhg/structure/hypergraphs/hypergraph.py: Hypergraph.e2v, Hypergraph.v2e"]}
{"id": "C124", "title": "Smoothing never makes features rougher", "statement": "For a Graph with non-negative weights one call, and any number of successive calls, of smoothing_with_GCN does not increase, for any column of the features, the weighted sum over the edges of the squared difference of the values at the two ends, each divided by the square root of the degree (with the unit loops of L_GCN). For a Hypergraph with non-negative weights the same holds of smoothing_with_HGNN, and of its group version, with the differences between all pairs of vertices of a hyperedge, divided by its number of vertices.", "quantifier": "every Graph and Hypergraph built through the interface, every feature matrix, every number of calls; for hypergraphs: hyperedges of distinct existing vertices and at least one hyperedge group", "why_tests_cant": "An inequality for all weights and features; a test sees one of them.", "anchors": ["dhg/structure/graphs/graph.py: Graph.smoothing_with_GCN, Graph.L_GCN", "dhg/structure/hypergraphs/hypergraph.py: Hypergraph.smoothing_with_HGNN, Hypergraph.L_HGNN, Hypergraph.smoothing_with_HGNN_of_group"]}
{"id": "C125", "title": "A task works on one device", "statement": "The features, structure, labels and masks in the data of a vertex classification task are on the device of the task, and no run or test of a task, nor test on other data, fails because tensors are on different devices.", "quantifier": "every program that makes structures, dictionaries and tasks, moves, runs and tests them, with calls that may fail; every model that works when everything is on one device", "why_tests_cant": "Which objects two tasks share, and what is moved when, depends on the whole history of calls; and tests without a GPU never see two devices.", "anchors": ["dhg/experiments/base.py: BaseTask.__init__, BaseTask.experiment, BaseTask.run", "dhg/experiments/vertex_classification.py: VertexClassificationTask.to, VertexClassificationTask.train, VertexClassificationTask.validate, VertexClassificationTask.test"]}
{"id": "C126", "title": "A task leaves the data of the caller alone", "statement": "Making, moving, running and testing a vertex classification task leaves the dictionary the caller passed as data, its tensors and its structure as they were.", "quantifier": "every state of the objects, every dictionary, task, device, run with any trials, whether the call succeeds or fails", "why_tests_cant": "Aliasing between the caller's dictionary and the task's shows only in what the caller does later.", "anchors": ["dhg/experiments/base.py: BaseTask.__init__, BaseTask.experiment, BaseTask.run", "dhg/experiments/vertex_classification.py: VertexClassificationTask.to, VertexClassificationTask.test"]}
{"id": "C127", "title": "Calls work as documented", "statement": "A call of a public function, method or class that follows its documented parameter list is accepted: positional arguments go to the documented parameters in the documented order, keyword arguments to the documented names, and a documented parameter that is left out has the documented default. The constructors of the task classes hand all of this on to BaseTask.__init__ unchanged.", "quantifier": "every documented function of the package without *args or **kwargs, all argument values, every split into positional and keyword arguments, every choice of optional arguments left out", "why_tests_cant": "Tests call functions in the few ways their author had in mind; a swapped, renamed or dropped parameter shows only for the other ways.", "anchors": ["dhg/experiments/graphs/graph.py: GraphVertexClassificationTask.__init__", "dhg/experiments/vertex_classification.py: VertexClassificationTask.__init__", "dhg/models/hypergraphs/hypergcn.py: HyperGCN.__init__", "dhg/random/hypergraphs/hypergraph.py: uniform_hypergraph_Gnp, hypergraph_Gnm", "dhg/structure/hypergraphs/hypergraph.py: Hypergraph.add_hyperedges, Hypergraph.add_hyperedges_from_feature_kNN, Hypergraph.add_hyperedges_from_bigraph", "dhg/visualization/feature/visualization.py: draw_in_euclidean_space"]}
{"id": "C128", "title": "Directed and bipartite graphs and recommenders do not depend on how vertices are numbered", "statement": "Renaming the vertices of a DiGraph, or the users and the items of a BiGraph (each side by its own renaming), and moving the rows of the features along, renames every answer and changes nothing else: adjacency and incidence matrices, degrees, neighbour lists, sum and mean message passing in both directions, the GCN matrix of a bipartite graph and smoothing with it. LightGCN, NGCF and DHCF give every user and item the embedding it had before.", "quantifier": "all directed and bipartite graphs reachable through the API with ids in range, all sizes, all renamings, all features and embedding tables, any number of layers", "why_tests_cant": "An example with particular ids cannot show that ids carry no meaning; code that favours small ids or confuses the offset of items only differs for some numberings.", "anchors": ["dhg/structure/graphs/directed_graph.py: DiGraph.A, DiGraph.deg_v_in, DiGraph.deg_v_out, DiGraph.nbr_v_in, DiGraph.nbr_v_out, DiGraph.v2v", "dhg/structure/graphs/bipartite_graph.py: BiGraph.B, BiGraph.A, BiGraph.L_GCN, BiGraph.u2v, BiGraph.v2u, BiGraph.smoothing_with_GCN", "dhg/models/graphs/lightgcn.py: LightGCN.forward", "dhg/models/graphs/ngcf.py: NGCF.forward", "dhg/models/hypergraphs/dhcf.py: DHCF.forward"]}
{"id": "C129", "title": "Several graphs or hypergraphs put in one object are computed as if each were alone", "statement": "Batching several graphs (or hypergraphs) into one object by counting the vertices of the later ones from the number of vertices before them is safe. One constructor call on the joined edge lists gives exactly the edges and weights of the parts. The matrices A, D_v, D_v_neg_1, L, L_rw and L_GCN of the joined graph have those of the parts as diagonal blocks and zeros elsewhere. A network of message passing calls (v2v with sum or mean, smoothing_with_GCN or smoothing_with_HGNN) and row functions gives every vertex the output it gets when its own part is processed alone, and it fails on the joined object exactly if it fails on a part.", "quantifier": "all pairs of graphs and of hypergraphs reachable through the API (several parts by repetition), all sizes, weights, self loops, features and network depths", "why_tests_cant": "A leak between parts shows only for special sizes or weights, for example when one part has no edges or an isolated vertex; tests compare a handful of batches.", "anchors": ["dhg/structure/graphs/graph.py: Graph.__init__, Graph.A, Graph.D_v, Graph.D_v_neg_1, Graph.L, Graph.L_rw, Graph.L_GCN, Graph.v2v, Graph.smoothing_with_GCN", "dhg/structure/hypergraphs/hypergraph.py: Hypergraph.__init__, Hypergraph.v2v, Hypergraph.smoothing_with_HGNN"]}
{"id": "C130", "title": "Training a BGNN is the minimisation its paper describes and does not fail", "statement": "BGNN_Adv.train_one_layer plays the adversarial game: in each of the max_epoch rounds the discriminator takes one optimizer step on the mean cross entropy of telling the true rows from those that the layer makes of the other side's features, and then the layer takes one step on the mean cross entropy of its rows being taken for true by the discriminator just improved. The discriminator gives every row one number strictly between 0 and 1 that depends on this row only. When the made-up rows equal the true ones, no discriminator gets below 2 log 2, and exactly those answering 1/2 everywhere reach it. BGNN_MLP.train_one_layer takes one step per epoch on the mean squared difference, which is zero exactly for equal rows and cannot come near zero for features outside [-1, 1]. With any optimizers that keep parameter shapes, train_with_cascaded of both classes does not raise and returns what the trained model computes.", "quantifier": "all bipartite graphs with vertices on both sides, all features and channels that fit, all optimizers, initial parameters, dropout masks, numbers of epochs and depths", "why_tests_cant": "Training outcomes depend on random draws and floating point; a test can only see that some loss went down once, not that the losses, their order and the discriminator used in each are the right ones.", "anchors": ["dhg/models/graphs/bgnn.py: BGNN_Adv.train_one_layer, BGNN_Adv.train_with_cascaded, BGNN_MLP.train_one_layer, BGNN_MLP.train_with_cascaded, Decoder", "dhg/nn/convs/common.py: Discriminator"]}
{"id": "C131", "title": "The order in which samples are evaluated does not matter", "statement": "Shuffling the samples (the rows of y_true and y_pred, moved together) leaves the mean of every retrieval and recommender metric and the mean precision-recall curve unchanged, and with ret_batch the value of every sample moves with the sample. An evaluator gives the same validation result and the same test dictionary for two epochs over the same samples, shuffled and cut into batches in different ways.", "quantifier": "all tables of marks and scores, all permutations, all metrics and parameters an evaluator can be configured with, all ways of cutting into batches that the metrics accept, whatever the evaluator was used for before", "why_tests_cant": "Data loaders shuffle differently in every run; a test fixes one order.", "anchors": ["dhg/metrics/retrieval.py: precision, recall, ndcg, map, mrr, pr_curve", "dhg/metrics/recommender.py: precision, recall, ndcg", "dhg/metrics/base.py: BaseEvaluator.validate_add_batch, BaseEvaluator.validate_epoch_res, BaseEvaluator.test_add_batch, BaseEvaluator.test_epoch_res, BaseEvaluator.validate, BaseEvaluator.test"]}
{"id": "C132", "title": "Only the proportions of edge weights matter where weights are normalised", "statement": "Multiplying all edge weights by one positive number (a change of unit) multiplies A, the degrees, the Laplacian L and summed messages by this number, and changes nothing that is normalised: L_sym and L_rw of a graph, mean message passing in graphs, directed graphs (both directions) and bipartite graphs (both directions), a GraphSAGE layer; for a hypergraph the incidence matrix, hyperedge sizes, L_HGNN, L_sym, L_rw, mean v2v and the layers of HGNN and HGNN+. The constructor gives such a graph when all listed weights are multiplied, with any merge operation for repeated edges. The exception is L_GCN of a graph, which adds self loops of weight 1 whatever the unit of the weights.", "quantifier": "all graphs, directed and bipartite graphs, and hypergraphs with a hyperedge group, reachable through the API with ids in range and nonnegative weights; all positive factors, features and layers; without the extra self loops", "why_tests_cant": "Two runs with different units agree for all weights or for none that a test picks; a normalisation that forgets one factor agrees on unweighted examples.", "anchors": ["dhg/structure/graphs/graph.py: Graph.__init__, Graph.A, Graph.deg_v, Graph.L, Graph.L_sym, Graph.L_rw, Graph.L_GCN, Graph.v2v", "dhg/structure/graphs/directed_graph.py: DiGraph.v2v", "dhg/structure/graphs/bipartite_graph.py: BiGraph.u2v, BiGraph.v2u", "dhg/structure/hypergraphs/hypergraph.py: Hypergraph.H, Hypergraph.L_HGNN, Hypergraph.L_sym, Hypergraph.L_rw, Hypergraph.v2v", "dhg/nn/convs/graphs/graphsage_conv.py: GraphSAGEConv.forward", "dhg/nn/convs/hypergraphs/hgnn_conv.py: HGNNConv.forward", "dhg/nn/convs/hypergraphs/hgnnp_conv.py: HGNNPConv.forward"]}
{"id": "C133", "title": "Random graphs have the documented distribution", "statement": "If random.random() yields independent numbers, uniform in [0, 1), then graph_Gnp, digraph_Gnp, bigraph_Gnp and uniform_hypergraph_Gnp return each graph (hypergraph) on the given vertices with exactly the probability prob^m (1-prob)^(N-m), where m is its number of edges and N the number of possible edges: each possible edge is there independently with probability prob. graph_Gnp_fast and digraph_Gnp_fast, which skip over candidates by a logarithm of the draw instead of drawing for each, have the same distribution.", "quantifier": "all numbers of vertices greater than 1, all probabilities in [0, 1], all sets of edges; all probability spaces with such draws", "why_tests_cant": "A distribution cannot be established by runs; a generator that skips one candidate too many, or draws with 1 - prob, or reuses a draw, returns plausible graphs in every single run.", "anchors": ["dhg/random/graphs/graph.py: graph_Gnp, graph_Gnp_fast", "dhg/random/graphs/directed_graph.py: digraph_Gnp, digraph_Gnp_fast", "dhg/random/graphs/bipartite_graph.py: bigraph_Gnp", "dhg/random/hypergraphs/hypergraph.py: uniform_hypergraph_Gnp"]}
{"id": "C134", "title": "Random graphs with a given number of edges are uniform", "statement": "If the random number generator is uniform and its calls are independent, then graph_Gnm, digraph_Gnm, bigraph_Gnm and uniform_hypergraph_Gnm draw uniformly from the graphs (k-uniform hypergraphs) on the given vertices with the given number of edges: of the C(N, m) sets of m possible edges, each comes out with probability 1 / C(N, m), and however long the generation runs, those who have come out are equally likely.", "quantifier": "all numbers of vertices greater than 1, all numbers of edges up to the number of possible edges, all sets of that many edges; all probability spaces with such draws; all numbers of rounds of the rejection loop", "why_tests_cant": "A distribution cannot be established by runs; a generator that never picks one vertex, or throws away the pairs drawn in descending order for some vertices only, still returns graphs with the right number of edges in every run.", "anchors": ["dhg/random/graphs/graph.py: graph_Gnm", "dhg/random/graphs/directed_graph.py: digraph_Gnm", "dhg/random/graphs/bipartite_graph.py: bigraph_Gnm", "dhg/random/hypergraphs/hypergraph.py: uniform_hypergraph_Gnm"]}
{"id": "C135", "title": "Every split is equally likely", "statement": "If the random number generator is uniform and its calls are independent, then split_by_num and split_by_ratio return each split that they can return with the same probability. If the labels are consecutive numbers starting at 0 or 1 and no count or ratio is negative, then these are all the splits with the requested numbers of training, validation and test vertices of each class.", "quantifier": "all labels, all counts and ratios, all numbers of vertices that are at least the number of labels, all possible splits; all probability spaces with such draws", "why_tests_cant": "A distribution cannot be established by runs; a shuffle that never leaves a vertex where it was, or that draws from all positions every time, still gives disjoint masks with the right counts in every run.", "anchors": ["dhg/utils/dataset_split.py: split_by_num", "dhg/utils/dataset_split.py: split_by_ratio"]}
{"id": "C136", "title": "The training items of each user are a uniform choice, independent of the other users", "statement": "If the random number generator is uniform and its calls are independent, then split_by_num_for_UI_bigraph and split_by_ratio_for_UI_bigraph select the training items of a user with k items uniformly from all sets of j of these items, where j is the requested number (all items, if there are fewer) or the requested share rounded down, and independently of the other users: each selection comes out with the product of the probabilities 1 / C(k, j).", "quantifier": "all bipartite graphs without negative weights, all counts that are not negative, all ratios from 0 to 1, all selections of training items; all probability spaces with such draws", "why_tests_cant": "A distribution cannot be established by runs; a split that always keeps the item with the smallest number for training, or that uses the same draws for all users, still has the right counts in every run.", "anchors": ["dhg/utils/dataset_split.py: split_by_num_for_UI_bigraph", "dhg/utils/dataset_split.py: split_by_ratio_for_UI_bigraph"]}
{"id": "C137", "title": "Negative items and training triplets are drawn uniformly", "statement": "If the random number generator is uniform and its calls are independent, then item i of a strict_link training UserItemDataset carries each item that is no partner of the user of interaction i with the same probability, whatever number of draws has been made, and with probability 1 divided by the number of such items in the limit.  Without strict_link, the triplet (u, p, v) comes out with probability 1 / (number of users), times the share of interactions with p among those of u, times 1 / (number of items that are no partner of u).", "quantifier": "all interaction lists with a positive number of items, in the second part with at least one interaction for each user; all users, positive and negative items; all probability spaces with such draws", "why_tests_cant": "A distribution cannot be established by runs; a sampler that takes the next free item after a collision, instead of drawing again, returns valid negative items in every run, but prefers some.", "anchors": ["dhg/utils/dataset_wrapers.py: UserItemDataset.sample_neg_item", "dhg/utils/dataset_wrapers.py: UserItemDataset.sample_triplet", "dhg/utils/dataset_wrapers.py: UserItemDataset.__getitem__"]}
{"id": "C138", "title": "Dropping is independent for all edges, and dropout leaves the documented share on average", "statement": "If the random number generator is uniform and its calls are independent, then drop_edges, drop_hyperedges, drop_hyperedges_of_group and sparse_dropout keep every edge (hyperedge, stored entry) with probability 1 - rate, independently of the others: each selection of edges is what is left with probability (1 - rate)^kept * rate^dropped.  Message passing with sums or means and the stored weights (v2v, u2v, v2u, v2e, e2v) and smoothing with a drop rate have as mean exactly (1 - drop_rate) times the result without dropout; nothing is rescaled.  v2v of a hypergraph, which drops in both halves, has as mean the product of the two shares times the result without dropout.  k calls of smoothing_with_GCN or smoothing_with_HGNN one after the other, each with fresh draws, have as mean (1 - drop_rate)^k times the result of the k calls without dropout.  The variance is known too: an entry of Graph.v2v, DiGraph.v2v, BiGraph.u2v or BiGraph.v2u with sums, of smoothing_with_GCN or of smoothing_with_HGNN, with drop rate p has variance p (1 - p) times the sum of the squares of the messages it adds up without dropout.  With means (Graph.v2v) the divisor is the degree without dropout and the squares are those of the shares of the average.  In the same calls the errors made at two different vertices are uncorrelated, even at the two ends of one undirected edge.", "quantifier": "all graphs, directed graphs, bipartite graphs and hypergraphs, all rates from 0 to 1, all selections of edges, all features; all probability spaces with such draws", "why_tests_cant": "A distribution cannot be established by runs; dropping whole neighbourhoods together, or the same positions in every group, gives the right expected number of edges in every test.", "anchors": ["dhg/structure/graphs/graph.py: Graph.drop_edges", "dhg/structure/graphs/directed_graph.py: DiGraph.drop_edges", "dhg/structure/graphs/bipartite_graph.py: BiGraph.drop_edges", "dhg/structure/hypergraphs/hypergraph.py: Hypergraph.drop_hyperedges", "dhg/structure/hypergraphs/hypergraph.py: Hypergraph.drop_hyperedges_of_group", "dhg/utils/sparse.py: sparse_dropout"]}
{"id": "C139", "title": "Attention answers to its scores as a softmax should", "statement": "softmax_then_sum with explicit scores (Graph.v2v, DiGraph.v2v, BiGraph.u2v and v2u, Hypergraph.v2e_aggregation and e2v_aggregation) depends on score differences only: adding one amount to all scores of the messages to a receiver, another amount for another receiver, leaves the answer as it was.  Raising the score of one message moves the features of its receiver towards those of its sender by a share strictly between 0 and 1, the same for all columns, and changes no other row.  A receiver whose messages have equal scores gets the plain average of their features.  Without explicit scores the stored weights are the scores (DiGraph, BiGraph), and in a hypergraph every receiver gets the plain average.", "quantifier": "all graphs, directed graphs (both directions), bipartite graphs and hypergraphs (whole or one group), all features, all score lists of the right length, all shifts and all raised messages", "why_tests_cant": "A softmax over all stored entries, or over the senders instead of the receivers, passes tests on graphs where every vertex has one neighbour or the scores are symmetric; the direction in which every output moves is a statement about all scores.", "anchors": ["dhg/structure/graphs/graph.py: Graph.v2v", "dhg/structure/graphs/directed_graph.py: DiGraph.v2v", "dhg/structure/graphs/bipartite_graph.py: BiGraph.u2v", "dhg/structure/graphs/bipartite_graph.py: BiGraph.v2u", "dhg/structure/hypergraphs/hypergraph.py: Hypergraph.v2e_aggregation", "dhg/structure/hypergraphs/hypergraph.py: Hypergraph.e2v_aggregation"]}
{"id": "C140", "title": "LightGCN in training averages damped powers", "statement": "LightGCN.forward in training mode with num_layers = k and drop_rate = p succeeds on every fitting bipartite graph, and on average over the draws of the dropout the embedding of each user and item is the mean over t = 0, ..., k of (1 - p)^t times its row of L_GCN^t E, E being the stacked embedding tables.  Dropout does not rescale what it keeps, so the layer t counts for (1 - p)^t of what it counts for in evaluation.", "quantifier": "all bipartite graphs with nonnegative weights, all embedding tables of fitting shape, all numbers of layers, all drop rates in [0, 1], all independent uniform draws", "why_tests_cant": "A test sees one outcome of the dropout; the mean over all outcomes, and that the layers use independent draws, so that the mean of a product of dropped matrices is the product of the means, cannot be read off finitely many runs.", "anchors": ["dhg/models/graphs/lightgcn.py: LightGCN.forward", "dhg/structure/graphs/bipartite_graph.py: BiGraph.smoothing_with_GCN", "dhg/utils/sparse.py: sparse_dropout"]}
