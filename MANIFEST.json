{
 "claims": [
  {
   "property": "C01",
   "status": "proved",
   "theorems": [
    "DHG.Props.C01_graph_reads_fresh",
    "DHG.Props.C01_graph_reads_do_not_interfere"
   ],
   "note": ""
  },
  {
   "property": "C02",
   "status": "proved",
   "theorems": [
    "DHG.Props.C02_graph_edge_set",
    "DHG.Props.C02_orientation_irrelevant",
    "DHG.Props.C02_one_weight_per_pair"
   ],
   "note": ""
  },
  {
   "property": "C03",
   "status": "proved",
   "theorems": [
    "DHG.Props.C03_merge_rule",
    "DHG.Props.C03_order_independent",
    "DHG.Props.C03_mean_is_order_dependent"
   ],
   "note": ""
  },
  {
   "property": "C04",
   "status": "proved",
   "theorems": [
    "DHG.Props.C04_bigraph_listing",
    "DHG.Props.C04_digraph_listing",
    "DHG.Props.C04_graph_listing"
   ],
   "note": ""
  },
  {
   "property": "C05",
   "status": "proved",
   "theorems": [
    "DHG.Props.C05_graph_adjacency",
    "DHG.Props.C05_graph_edge_vectors"
   ],
   "note": ""
  },
  {
   "property": "C06",
   "status": "proved",
   "theorems": [
    "DHG.Props.C06_graph_degrees",
    "DHG.Props.C06_graph_degree_total"
   ],
   "note": ""
  },
  {
   "property": "C07",
   "status": "proved",
   "theorems": [
    "DHG.Props.C07_graph_neighbours",
    "DHG.Props.C07_graph_neighbours_one",
    "DHG.Props.C07_graph_neighbours_symmetric",
    "DHG.Props.C07_graph_neighbours_bad_hop"
   ],
   "note": ""
  },
  {
   "property": "C08",
   "status": "proved",
   "theorems": [
    "DHG.Props.C08_graph_laplacian",
    "DHG.Props.C08_graph_laplacian_psd",
    "DHG.Props.C08_graph_laplacian_no_effect"
   ],
   "note": ""
  },
  {
   "property": "C09",
   "status": "proved",
   "theorems": [
    "DHG.Props.C09_graph_Dv_neg_half",
    "DHG.Props.C09_graph_Lsym"
   ],
   "note": ""
  },
  {
   "property": "C10",
   "status": "proved",
   "theorems": [
    "DHG.Props.C10_graph_Lrw"
   ],
   "note": ""
  },
  {
   "property": "C11",
   "status": "proved",
   "theorems": [
    "DHG.Props.C11_graph_LGCN",
    "DHG.Props.C11_graph_smoothing"
   ],
   "note": ""
  },
  {
   "property": "C12",
   "status": "proved",
   "theorems": [
    "DHG.Props.C12_graph_v2v_sum",
    "DHG.Props.C12_graph_v2v_mean",
    "DHG.Props.C12_graph_v2v_mean_bounds",
    "DHG.Props.C12_graph_v2v_local"
   ],
   "note": ""
  },
  {
   "property": "C13",
   "status": "partial",
   "theorems": [
    "DHG.Props.C13_bigraph_explicit_weights",
    "DHG.Props.C13_bigraph_weighted_mean_partial",
    "DHG.Props.C13_bigraph_weighted_mean_false",
    "DHG.Props.C13_digraph_explicit_weights",
    "DHG.Props.C13_digraph_weighted_mean_partial",
    "DHG.Props.C13_digraph_weighted_mean_false",
    "DHG.Props.C13_graph_explicit_weights",
    "DHG.Props.C13_graph_weighted_mean_partial",
    "DHG.Props.C13_graph_weighted_mean_false",
    "DHG.Props.C13_hypergraph_explicit_weights",
    "DHG.Props.C13_hypergraph_weighted_mean_partial",
    "DHG.Props.C13_hypergraph_weighted_mean_false"
   ],
   "note": "C13_bigraph_weighted_mean_partial: Missing: other totals, see `C13_bigraph_weighted_mean_false`. | C13_bigraph_weighted_mean_false: C13 (BiGraph) is false in both directions: on one edge with weight 2, the weighted mean of constant features 1 is 4. | C13_digraph_weighted_mean_partial: Missing: other totals, see `C13_digraph_weighted_mean_false`. | C13_digraph_weighted_mean_false: C13 (DiGraph) is false: on one edge with weight 2, the weighted mean of constant features 1 is 4. | C13_graph_weighted_mean_partial: Missing: other totals, where it is not (`C13_graph_weighted_mean_false`). | C13_graph_weighted_mean_false: C13 is false: on two vertices joined by an edge, with edge weights 2, the weighted mean of constant features 1 is 4. | C13_hypergraph_weighted_mean_partial: Missing: other totals, see `C13_hypergraph_weighted_mean_false`. | C13_hypergraph_weighted_mean_false: C13 (Hypergraph) is false: on one hyperedge with one vertex and weight 2, the weighted mean of the constant feature 1 is 4."
  },
  {
   "property": "C14",
   "status": "partial",
   "theorems": [
    "DHG.Props.C14_bigraph_softmax",
    "DHG.Props.C14_bigraph_softmax_default",
    "DHG.Props.C14_digraph_softmax",
    "DHG.Props.C14_digraph_softmax_default",
    "DHG.Props.C14_graph_softmax",
    "DHG.Props.C14_graph_softmax_default_weights_false",
    "DHG.Props.C14_hypergraph_softmax",
    "DHG.Props.C14_hypergraph_softmax_default"
   ],
   "note": "C14_graph_softmax_default_weights_false: C14 is false when no weights are passed: the call raises `TypeError` on every graph."
  },
  {
   "property": "C15",
   "status": "partial",
   "theorems": [
    "DHG.Props.C15_bigraph_clone_faithful_false",
    "DHG.Props.C15_bigraph_clone_faithful_partial",
    "DHG.Props.C15_digraph_clone_faithful",
    "DHG.Props.C15_graph_clone_faithful",
    "DHG.Props.C15_graph_clones_independent",
    "DHG.Props.C15_digraph_clones_independent",
    "DHG.Props.C15_bigraph_clones_independent",
    "DHG.Props.C15_hypergraph_clones_independent",
    "DHG.Props.C15_objects_independent",
    "DHG.Props.C15_graph_clone_answers",
    "DHG.Props.C15_original_answers",
    "DHG.Props.C15_hypergraph_clone_faithful_partial",
    "DHG.Props.C15_hypergraph_clone_default",
    "DHG.Props.C15_hypergraph_clone_faithful_false"
   ],
   "note": "C15_bigraph_clone_faithful_false: C15 (BiGraph) is false: the clone of a graph with the extra self loop flag has lost the flag. | C15_bigraph_clone_faithful_partial: Missing: flagged graphs, and graphs switched from `num_u = 0`, for which `clone` raises. | C15_hypergraph_clone_faithful_partial: Missing: vertex weights, which are lost (`C15_hypergraph_clone_faithful_false`). | C15_hypergraph_clone_faithful_false: C15 (Hypergraph) is false for vertex weights: the clone has unit weights."
  },
  {
   "property": "C16",
   "status": "partial",
   "theorems": [
    "DHG.Props.C16_bigraph_round_trip_false",
    "DHG.Props.C16_bigraph_round_trip_partial",
    "DHG.Props.C16_digraph_state_dict_round_trip",
    "DHG.Props.C16_graph_state_dict_round_trip",
    "DHG.Props.C16_save_needs_directory",
    "DHG.Props.C16_graph_file_round_trip",
    "DHG.Props.C16_digraph_file_round_trip",
    "DHG.Props.C16_bigraph_file_round_trip_partial",
    "DHG.Props.C16_hypergraph_file_round_trip_partial",
    "DHG.Props.C16_load_other_class",
    "DHG.Props.C16_load_missing_file",
    "DHG.Props.C16_hypergraph_state_dict_partial",
    "DHG.Props.C16_hypergraph_state_dict_false"
   ],
   "note": "C16_bigraph_round_trip_false: C16 (BiGraph) is false: the state dictionary does not carry the extra self loop flag. | C16_bigraph_round_trip_partial: Missing: as for clones. | C16_bigraph_file_round_trip_partial: Missing: that flag, which is not saved (`C16_bigraph_round_trip_false`). | C16_hypergraph_file_round_trip_partial: Missing: vertex weights, which are not saved (`C16_hypergraph_state_dict_false`). | C16_hypergraph_state_dict_partial: Missing: vertex weights, which the state dictionary does not carry. | C16_hypergraph_state_dict_false: C16 (Hypergraph) is false for vertex weights."
  },
  {
   "property": "C17",
   "status": "proved",
   "theorems": [
    "DHG.Props.C17_bigraph_drop_edges",
    "DHG.Props.C17_digraph_drop_edges",
    "DHG.Props.C17_digraph_drop_all",
    "DHG.Props.C17_bigraph_drop_all",
    "DHG.Props.C17_hypergraph_drop_all",
    "DHG.Props.C17_graph_drop_edges",
    "DHG.Props.C17_graph_drop_all",
    "DHG.Props.C17_hypergraph_drop"
   ],
   "note": ""
  },
  {
   "property": "C18",
   "status": "proved",
   "theorems": [
    "DHG.Props.C18_bigraph_remove_exactly",
    "DHG.Props.C18_bigraph_remove_absent",
    "DHG.Props.C18_bigraph_remove_idempotent",
    "DHG.Props.C18_bigraph_add_then_remove",
    "DHG.Props.C18_digraph_remove_exactly",
    "DHG.Props.C18_digraph_remove_absent",
    "DHG.Props.C18_digraph_remove_idempotent",
    "DHG.Props.C18_digraph_add_then_remove",
    "DHG.Props.C18_graph_remove_exactly",
    "DHG.Props.C18_graph_remove_absent",
    "DHG.Props.C18_graph_remove_idempotent",
    "DHG.Props.C18_graph_add_then_remove"
   ],
   "note": ""
  },
  {
   "property": "C19",
   "status": "partial",
   "theorems": [
    "DHG.Props.C19_bigraph_failed_calls_atomic",
    "DHG.Props.C19_bigraph_bad_arguments_raise",
    "DHG.Props.C19_digraph_failed_calls_atomic",
    "DHG.Props.C19_digraph_bad_arguments_raise",
    "DHG.Props.C19_graph_failed_calls_atomic",
    "DHG.Props.C19_graph_bad_arguments_raise",
    "DHG.Props.C19_hypergraph_failed_calls_partial",
    "DHG.Props.C19_hypergraph_failed_add_false"
   ],
   "note": "C19_hypergraph_failed_calls_partial: Missing: unknown `merge_op` (`C19_hypergraph_failed_add_false`). | C19_hypergraph_failed_add_false: C19 is false for `Hypergraph.add_hyperedges` with an unknown `merge_op`: hyperedges before the offending one stay."
  },
  {
   "property": "C20",
   "status": "partial",
   "theorems": [
    "DHG.Props.C20_digraph_in_range_false",
    "DHG.Props.C20_digraph_in_range_partial",
    "DHG.Props.C20_graph_in_range_false",
    "DHG.Props.C20_graph_in_range_partial"
   ],
   "note": "C20_digraph_in_range_false: C20 (DiGraph) is false: `add_edges` accepts a negative vertex id, after which reading `A` raises. | C20_digraph_in_range_partial: Missing: negative ids. | C20_graph_in_range_false: C20 is false: `add_edges` accepts a negative vertex id, after which reading `A` raises. | C20_graph_in_range_partial: Missing: histories with negative ids, see `C20_graph_in_range_false`."
  },
  {
   "property": "C21",
   "status": "partial",
   "theorems": [
    "DHG.Props.C21_bigraph_weights_paired_false",
    "DHG.Props.C21_bigraph_weights_paired_partial",
    "DHG.Props.C21_digraph_weights_paired_false",
    "DHG.Props.C21_digraph_weights_paired_partial",
    "DHG.Props.C21_graph_weights_paired_false",
    "DHG.Props.C21_graph_weights_paired_partial"
   ],
   "note": "C21_bigraph_weights_paired_false: C21 (BiGraph) is false: surplus edges are silently ignored. | C21_bigraph_weights_paired_partial: Missing: rejection of unequal lengths. | C21_digraph_weights_paired_false: C21 (DiGraph) is false: surplus edges are silently ignored. | C21_digraph_weights_paired_partial: Missing: rejection of unequal lengths. | C21_graph_weights_paired_false: C21 (Graph), the claim is false of the code: with fewer weights than edges the call succeeds and the remaining edges are silently ignored. | C21_graph_weights_paired_partial: Missing: rejection of unequal lengths."
  },
  {
   "property": "C22",
   "status": "partial",
   "theorems": [
    "DHG.Props.C22_digraph_reverse_false",
    "DHG.Props.C22_digraph_reverse_edges_partial",
    "DHG.Props.C22_digraph_reverse_reads_partial",
    "DHG.Props.C22_digraph_reverse_twice"
   ],
   "note": "C22_digraph_reverse_false: C22 is false: reading `A` first, the reversed graph still reports the old `A`, not the transpose. | C22_digraph_reverse_edges_partial: Missing: graphs that have been read since the last change (`C22_digraph_reverse_false`). | C22_digraph_reverse_reads_partial: Missing: as above."
  },
  {
   "property": "C23",
   "status": "proved",
   "theorems": [
    "DHG.Props.C23_digraph_adjacency",
    "DHG.Props.C23_digraph_degrees",
    "DHG.Props.C23_digraph_neighbours",
    "DHG.Props.C23_digraph_edge_vectors"
   ],
   "note": ""
  },
  {
   "property": "C24",
   "status": "proved",
   "theorems": [
    "DHG.Props.C24_digraph_v2v_sum",
    "DHG.Props.C24_digraph_v2v_mean",
    "DHG.Props.C24_digraph_v2v_reversed",
    "DHG.Props.C24_digraph_v2v_bad_arguments"
   ],
   "note": ""
  },
  {
   "property": "C25",
   "status": "partial",
   "theorems": [
    "DHG.Props.C25_bigraph_readable",
    "DHG.Props.C25_bigraph_incidence",
    "DHG.Props.C25_bigraph_A_blocks",
    "DHG.Props.C25_bigraph_degrees",
    "DHG.Props.C25_bigraph_neighbours",
    "DHG.Props.C25_bigraph_edge_vectors",
    "DHG.Props.C25_bigraph_flag_false"
   ],
   "note": "C25_bigraph_flag_false: C25 is false with the extra self loop flag and more right than left vertices: `B` cannot be built."
  },
  {
   "property": "C26",
   "status": "partial",
   "theorems": [
    "DHG.Props.C26_bigraph_switch_edges_partial",
    "DHG.Props.C26_bigraph_switch_reads_partial",
    "DHG.Props.C26_bigraph_switch_twice_partial",
    "DHG.Props.C26_bigraph_switch_false",
    "DHG.Props.C26_bigraph_switch_twice_false"
   ],
   "note": "C26_bigraph_switch_edges_partial: Missing: flagged graphs (the flag is dropped) and a left side of size 0 for the second switch. | C26_bigraph_switch_reads_partial: Missing: graphs with the flag set, which `switch_uv` does not carry over (`C26_bigraph_switch_false`). | C26_bigraph_switch_twice_partial: Missing: graphs with the flag set and graphs with an empty left side (`C26_bigraph_switch_twice_false`). | C26_bigraph_switch_false: C26 is false with the self loop flag: the switched graph has lost it, and shows fewer edges. | C26_bigraph_switch_twice_false: C26 is false for an empty left side: the switched graph cannot be switched back."
  },
  {
   "property": "C27",
   "status": "proved",
   "theorems": [
    "DHG.Props.C27_bigraph_sum",
    "DHG.Props.C27_bigraph_adjoint",
    "DHG.Props.C27_bigraph_mean",
    "DHG.Props.C27_bigraph_bad_aggregation"
   ],
   "note": ""
  },
  {
   "property": "C28",
   "status": "proved",
   "theorems": [
    "DHG.Props.C28_bigraph_from_adj_list",
    "DHG.Props.C28_digraph_from_adj_list",
    "DHG.Props.C28_graph_from_adj_list"
   ],
   "note": ""
  },
  {
   "property": "C29",
   "status": "partial",
   "theorems": [
    "DHG.Props.C29_bigraph_reads_fresh_partial",
    "DHG.Props.C29_bigraph_reads_do_not_interfere",
    "DHG.Props.C29_bigraph_clone_fresh_false",
    "DHG.Props.C29_digraph_fresh_false",
    "DHG.Props.C29_digraph_reads_fresh_partial",
    "DHG.Props.C29_digraph_reads_do_not_interfere_partial"
   ],
   "note": "C29_bigraph_reads_fresh_partial: Missing: the flag, which state dictionaries do not carry (`C16_bigraph_round_trip_false`), and clones of flagged objects (`C29_bigraph_clone_fresh_false`). | C29_bigraph_clone_fresh_false: C29 (BiGraph) is false for clones of flagged objects: whether `e` was read before cloning changes what the clone answers. | C29_digraph_fresh_false: C29 (DiGraph) is false: after reading `e`, `reverse_direction()` does not change the answer of `e`, although without the first read it does. | C29_digraph_reads_fresh_partial: Missing: objects reversed while values were cached. | C29_digraph_reads_do_not_interfere_partial: Missing: histories with it, where they do (`C22_digraph_reverse_false`)."
  },
  {
   "property": "C30",
   "status": "partial",
   "theorems": [
    "DHG.Props.C30_hypergraph_reads_fresh_partial",
    "DHG.Props.C30_hypergraph_reads_do_not_interfere",
    "DHG.Props.C30_hypergraph_reads_fresh_false"
   ],
   "note": "C30_hypergraph_reads_fresh_partial: Missing: histories in which `add_hyperedges` fails because of an unknown `merge_op` (`C30_hypergraph_reads_fresh_false`), and `W_v` of clones (`Fine`, `C45_hypergraph_clone_false`). | C30_hypergraph_reads_fresh_false: C30 is false without the restriction on histories: `add_hyperedges` with an unknown `merge_op` that meets an existing hyperedge raises after having added others, and the caches are not cleared."
  },
  {
   "property": "C31",
   "status": "proved",
   "theorems": [
    "DHG.Props.C31_hypergraph_hyperedge_map",
    "DHG.Props.C31_hypergraph_group_names",
    "DHG.Props.C31_hypergraph_no_copies",
    "DHG.Props.C31_hypergraph_vertex_order"
   ],
   "note": ""
  },
  {
   "property": "C32",
   "status": "partial",
   "theorems": [
    "DHG.Props.C32_hypergraph_groups_isolated",
    "DHG.Props.C32_hypergraph_drop_isolated",
    "DHG.Props.C32_hypergraph_num_e",
    "DHG.Props.C32_hypergraph_remove_exactly",
    "DHG.Props.C32_hypergraph_unknown_group",
    "DHG.Props.C32_hypergraph_remove_group",
    "DHG.Props.C32_hypergraph_unknown_group_raises_false"
   ],
   "note": "C32_hypergraph_unknown_group_raises_false: C32, the part on unknown names, is false for `remove_group` and `drop_hyperedges_of_group`: they accept an unknown group and do nothing."
  },
  {
   "property": "C33",
   "status": "partial",
   "theorems": [
    "DHG.Props.C33_hypergraph_H_partial",
    "DHG.Props.C33_hypergraph_group_order",
    "DHG.Props.C33_hypergraph_H_false"
   ],
   "note": "C33_hypergraph_H_partial: Missing: the whole-hypergraph `H` when there is no group at all (`C33_hypergraph_H_false`). | C33_hypergraph_H_false: C33 fails for the whole hypergraph without groups: `H` raises."
  },
  {
   "property": "C34",
   "status": "partial",
   "theorems": [
    "DHG.Props.C34_hypergraph_degrees_partial",
    "DHG.Props.C34_hypergraph_handshake",
    "DHG.Props.C34_hypergraph_inverses_partial",
    "DHG.Props.C34_hypergraph_Dv_neg_half_partial",
    "DHG.Props.C34_hypergraph_degree_groups",
    "DHG.Props.C34_hypergraph_degrees_false"
   ],
   "note": "C34_hypergraph_degrees_partial: Missing: a hypergraph without groups (`C34_hypergraph_degrees_false`). | C34_hypergraph_inverses_partial: Missing: a hypergraph without groups. | C34_hypergraph_Dv_neg_half_partial: Missing: a hypergraph without groups. | C34_hypergraph_degrees_false: C34 fails for a hypergraph without groups: reading degrees raises."
  },
  {
   "property": "C35",
   "status": "partial",
   "theorems": [
    "DHG.Props.C35_hypergraph_nbr_e_partial",
    "DHG.Props.C35_hypergraph_nbr_v",
    "DHG.Props.C35_hypergraph_nbr_dual",
    "DHG.Props.C35_hypergraph_nbr_range",
    "DHG.Props.C35_hypergraph_nbr_e_false"
   ],
   "note": "C35_hypergraph_nbr_e_partial: Missing: a hypergraph without groups (`C35_hypergraph_nbr_e_false`), and negative `v`, which the code accepts as an index from the end. | C35_hypergraph_nbr_e_false: C35 fails for a hypergraph without groups: `nbr_e` raises."
  },
  {
   "property": "C36",
   "status": "partial",
   "theorems": [
    "DHG.Props.C36_hypergraph_L_HGNN_partial",
    "DHG.Props.C36_hypergraph_L_rw_partial",
    "DHG.Props.C36_hypergraph_laplacians_false"
   ],
   "note": "C36_hypergraph_L_HGNN_partial: Missing: a hypergraph without groups (`C36_hypergraph_laplacians_false`). | C36_hypergraph_L_rw_partial: Missing: a hypergraph without groups. | C36_hypergraph_laplacians_false: C36 fails for a hypergraph without groups: the Laplacians raise."
  },
  {
   "property": "C37",
   "status": "partial",
   "theorems": [
    "DHG.Props.C37_hypergraph_v2e_partial",
    "DHG.Props.C37_hypergraph_e2v_partial",
    "DHG.Props.C37_hypergraph_e2v_mean_false",
    "DHG.Props.C37_hypergraph_v2v_is_composition",
    "DHG.Props.C37_hypergraph_v2v_mean_constant",
    "DHG.Props.C37_hypergraph_no_groups_false"
   ],
   "note": "C37_hypergraph_v2e_partial: Missing: a hypergraph without groups. | C37_hypergraph_e2v_partial: Missing: other weights (`C37_hypergraph_e2v_mean_false`), a hypergraph without groups. | C37_hypergraph_e2v_mean_false: C37 is false for `e2v` with `aggr='mean'` as an average: on a hyperedge of weight 2, the vertex receives half of the feature of its only hyperedge. | C37_hypergraph_no_groups_false: C37 fails for a hypergraph without groups: message passing raises."
  },
  {
   "property": "C38",
   "status": "proved",
   "theorems": [
    "DHG.Props.C38_hypergraph_single_group",
    "DHG.Props.C38_hypergraph_group_alone"
   ],
   "note": ""
  },
  {
   "property": "C39",
   "status": "partial",
   "theorems": [
    "DHG.Props.C39_hypergraph_sub_content",
    "DHG.Props.C39_hypergraph_sub_weights_partial",
    "DHG.Props.C39_hypergraph_sub_all",
    "DHG.Props.C39_hypergraph_sub_raises",
    "DHG.Props.C39_hypergraph_sub_weights_false"
   ],
   "note": "C39_hypergraph_sub_weights_partial: Missing: coinciding restrictions, of which the last one wins (`C39_hypergraph_sub_weights_false`). | C39_hypergraph_sub_weights_false: C39 is false for weights when two restrictions coincide: the weight of one of them is lost."
  },
  {
   "property": "C40",
   "status": "partial",
   "theorems": [
    "DHG.Props.C40_clique_partial",
    "DHG.Props.C40_clique_source",
    "DHG.Props.C40_clique_miu_false",
    "DHG.Props.C40_clique_empty_false"
   ],
   "note": "C40_clique_partial: Missing: the scaling by `miu` (see `C40_clique_miu_false`), and hypergraphs without any group (see `C40_clique_empty_false`). | C40_clique_miu_false: C40 is false about `miu`: the argument has no effect, so the weights are not scaled by it. | C40_clique_empty_false: C40 is false for hypergraphs without any group: the expansion raises."
  },
  {
   "property": "C41",
   "status": "partial",
   "theorems": [
    "DHG.Props.C41_star_partial",
    "DHG.Props.C41_star_source",
    "DHG.Props.C41_star_empty_false",
    "DHG.Props.C41_bigraph_partial",
    "DHG.Props.C41_bigraph_source",
    "DHG.Props.C41_bigraph_empty_false",
    "DHG.Props.C41_from_bigraph",
    "DHG.Props.C41_roundtrip_partial",
    "DHG.Props.C41_add_from_bigraph",
    "DHG.Props.C41_add_from_bigraph_weights"
   ],
   "note": "C41_star_partial: Missing: hypergraphs without any group (see `C41_star_empty_false`). | C41_star_empty_false: C41 is false for hypergraphs without any group: the star expansion raises. | C41_bigraph_partial: Missing: `vertex_as_U` for hypergraphs without hyperedges (see `C41_bigraph_empty_false`). | C41_bigraph_empty_false: C41 is false with `vertex_as_U` for hypergraphs without hyperedges: the constructor refuses a bipartite graph with `num_v = 0`. | C41_roundtrip_partial: Missing: empty hyperedges and the weights, which `from_bigraph` does not carry, and `vertex_as_U` for hypergraphs without hyperedges."
  },
  {
   "property": "C42",
   "status": "proved",
   "theorems": [
    "DHG.Props.C42_khop",
    "DHG.Props.C42_khop_refused",
    "DHG.Props.C42_add_khop",
    "DHG.Props.C42_add_khop_weights"
   ],
   "note": ""
  },
  {
   "property": "C43",
   "status": "partial",
   "theorems": [
    "DHG.Props.C43_from_graph_partial",
    "DHG.Props.C43_from_graph_edges",
    "DHG.Props.C43_from_graph_source",
    "DHG.Props.C43_from_graph_false",
    "DHG.Props.C43_add_from_graph"
   ],
   "note": "C43_from_graph_partial: Missing: graphs with a self loop that is listed twice, as an added loop and as an extra one (`C43_from_graph_false`). | C43_from_graph_false: C43 is false for graphs with a self loop and extra self loops: vertex 2 has the listed loops of weight 7 and 1, the hypergraph has one with weight 4."
  },
  {
   "property": "C44",
   "status": "partial",
   "theorems": [
    "DHG.Props.C44_hypergcn_partial",
    "DHG.Props.C44_hypergcn_contributes_partial",
    "DHG.Props.C44_hypergcn_source",
    "DHG.Props.C44_hypergcn_pair_false",
    "DHG.Props.C44_hypergcn_tie_false",
    "DHG.Props.C44_hypergcn_single_false"
   ],
   "note": "C44_hypergcn_partial: Missing: hyperedges with fewer than two vertices (`C44_hypergcn_single_false`), and, when self loops are removed, hypergraphs without hyperedges or, with mediators, without hyperedges of three vertices (`C44_hypergcn_pair_false`). | C44_hypergcn_contributes_partial: Missing: hyperedges of one vertex, of two vertices with mediators, or with equal projections. | C44_hypergcn_pair_false: C44 is false with mediators and removal of self loops when all hyperedges have two vertices: no edge is collected and the expansion raises. | C44_hypergcn_tie_false: C44 is false for hyperedges whose vertices all have the same projection: both extremes are the same vertex, so the hyperedge contributes no edge. | C44_hypergcn_single_false: C44 is false for hyperedges with a single vertex: the expansion raises."
  },
  {
   "property": "C45",
   "status": "partial",
   "theorems": [
    "DHG.Props.C45_hypergraph_vertex_weights_partial",
    "DHG.Props.C45_hypergraph_sub_weights",
    "DHG.Props.C45_hypergraph_clone_false",
    "DHG.Props.C45_hypergraph_drop_state_false",
    "DHG.Props.C45_hypergraph_assign_false",
    "DHG.Props.C45_hypergraph_clear_false"
   ],
   "note": "C45_hypergraph_vertex_weights_partial: Missing: `clone`, `state_dict`, `drop_hyperedges`, assignment and `clear` (`C45_hypergraph_*_false`). | C45_hypergraph_clone_false: C45 is false for `clone`: it loses the weights, and if `W_v` was read before, the clone's `W_v` contradicts its own `v_weight`. | C45_hypergraph_drop_state_false: C45 is false for `drop_hyperedges` and `from_state_dict(state_dict)`: the weights are lost. | C45_hypergraph_assign_false: C45 is false for assignment: it always raises `AttributeError`. | C45_hypergraph_clear_false: C45 is false for `clear`: the vertices stay but `v_weight` is `None` and `W_v` raises."
  },
  {
   "property": "C46",
   "status": "partial",
   "theorems": [
    "DHG.Props.C46_hypergraph_argument_unchanged_partial",
    "DHG.Props.C46_hypergraph_others_unchanged",
    "DHG.Props.C46_hypergraph_argument_same_hyperedges",
    "DHG.Props.C46_hypergraph_same_call",
    "DHG.Props.C46_hypergraph_argument_unchanged_false"
   ],
   "note": "C46_hypergraph_argument_unchanged_partial: Missing: lists of other sequences (`C46_hypergraph_argument_unchanged_false`). | C46_hypergraph_argument_unchanged_false: C46 is false: in a list of hyperedges given as lists, each is replaced by a sorted tuple."
  },
  {
   "property": "C47",
   "status": "partial",
   "theorems": [
    "DHG.Props.C47_graph_state_dict_partial",
    "DHG.Props.C47_digraph_state_dict_partial",
    "DHG.Props.C47_bigraph_state_dict_partial",
    "DHG.Props.C47_hypergraph_state_dict_partial",
    "DHG.Props.C47_rebuilt_shares_nothing",
    "DHG.Props.C47_graph_snapshot_false",
    "DHG.Props.C47_digraph_snapshot_false",
    "DHG.Props.C47_bigraph_snapshot_false",
    "DHG.Props.C47_hypergraph_snapshot_false",
    "DHG.Props.C47_graph_mixed_false"
   ],
   "note": "C47_graph_state_dict_partial: Missing: other mutating calls, which change it (`C47_graph_snapshot_false`). | C47_digraph_state_dict_partial: Missing: as for `Graph` (`C47_digraph_snapshot_false`). | C47_bigraph_state_dict_partial: Missing: as for `Graph` (`C47_bigraph_snapshot_false`). | C47_hypergraph_state_dict_partial: Missing: as for `Graph` (`C47_hypergraph_snapshot_false`). | C47_graph_snapshot_false: C47 (Graph) is false: adding an edge changes the state dictionaries already taken. | C47_digraph_snapshot_false: C47 (DiGraph) is false. | C47_bigraph_snapshot_false: C47 (BiGraph) is false. | C47_hypergraph_snapshot_false: C47 (Hypergraph) is false. | C47_graph_mixed_false: C47 (Graph). A state dictionary taken before `add_extra_selfloop` and edges added after it mix the two states: the object rebuilt has the new edges and the old flag."
  },
  {
   "property": "C48",
   "status": "proved",
   "theorems": [
    "DHG.Props.C48_graph_v2v_equivariant",
    "DHG.Props.C48_graph_adjacency_equivariant",
    "DHG.Props.C48_graph_gcn_equivariant",
    "DHG.Props.C48_gcn_conv",
    "DHG.Props.C48_sage_conv",
    "DHG.Props.C48_gin_conv",
    "DHG.Props.C48_gat_conv",
    "DHG.Props.C48_graph_models",
    "DHG.Props.C48_gcn_model_equivariant"
   ],
   "note": ""
  },
  {
   "property": "C50",
   "status": "proved",
   "theorems": [
    "DHG.Props.C50_numbering_injective",
    "DHG.Props.C50_numbering_unique",
    "DHG.Props.C50_remap_edge_list",
    "DHG.Props.C50_remap_edge_list_bipartite",
    "DHG.Props.C50_remap_edge_list_bipartite_raises",
    "DHG.Props.C50_remap_edge_lists",
    "DHG.Props.C50_remap_edge_lists_bipartite"
   ],
   "note": ""
  },
  {
   "property": "C51",
   "status": "proved",
   "theorems": [
    "DHG.Props.C51_round_trip_per_source",
    "DHG.Props.C51_round_trip_perm",
    "DHG.Props.C51_adjacency_lines"
   ],
   "note": ""
  },
  {
   "property": "C52",
   "status": "partial",
   "theorems": [
    "DHG.Props.C52_remap_adj_list_partial",
    "DHG.Props.C52_remap_adj_list_false",
    "DHG.Props.C52_remap_adj_list_bipartite_partial",
    "DHG.Props.C52_remap_adj_list_bipartite_false",
    "DHG.Props.C52_remap_adj_lists_partial"
   ],
   "note": "C52_remap_adj_list_partial: Missing: vertices that only occur on a line without neighbours. | C52_remap_adj_list_false: C52 is false: a vertex that only occurs on a line without neighbours raises `KeyError`. | C52_remap_adj_list_bipartite_partial: Missing: lines without items whose user occurs on no other line (`C52_remap_adj_list_bipartite_false`). | C52_remap_adj_list_bipartite_false: C52 is false in the bipartite form too: an empty line raises `IndexError`, a user without items `KeyError`. | C52_remap_adj_lists_partial: Missing: names that occur only on lines of one name."
  },
  {
   "property": "C53",
   "status": "partial",
   "theorems": [
    "DHG.Props.C53_split_by_num_disjoint",
    "DHG.Props.C53_split_by_num_counts_partial",
    "DHG.Props.C53_split_by_num_gap_false",
    "DHG.Props.C53_split_by_num_single_false",
    "DHG.Props.C53_split_by_num_negative_false"
   ],
   "note": "C53_split_by_num_counts_partial: Missing: labels with gaps, a single vertex, and negative counts. | C53_split_by_num_gap_false: C53 is false for labels with a gap: the vertex with label 2 is in no mask, whatever the shuffles. | C53_split_by_num_single_false: C53 is false for a single vertex: its label vector is squeezed to dimension 0 and the call raises `AssertionError`. | C53_split_by_num_negative_false: C53 is false for negative counts, which are accepted and count from the end: a vertex is in the training and the test mask, whatever the shuffles."
  },
  {
   "property": "C54",
   "status": "partial",
   "theorems": [
    "DHG.Props.C54_split_by_ratio_disjoint",
    "DHG.Props.C54_split_by_ratio_counts_partial",
    "DHG.Props.C54_split_by_ratio_raises",
    "DHG.Props.C54_split_by_ratio_single_false",
    "DHG.Props.C54_split_by_ratio_gap_false",
    "DHG.Props.C54_split_by_ratio_negative_false"
   ],
   "note": "C54_split_by_ratio_counts_partial: Missing: labels with gaps, a single vertex, and negative ratios. | C54_split_by_ratio_single_false: C54 is false for a single vertex. | C54_split_by_ratio_gap_false: C54 is false for labels with a gap: the vertex with label 2 is in no mask, whatever the shuffles. | C54_split_by_ratio_negative_false: C54 is false for negative ratios, which are accepted: the product with the class size is cut towards zero and counts from the end, and a vertex is in the training and the test mask, whatever the shuffles."
  },
  {
   "property": "C55",
   "status": "proved",
   "theorems": [
    "DHG.Props.C55_split_by_num_UI",
    "DHG.Props.C55_split_by_ratio_UI"
   ],
   "note": ""
  },
  {
   "property": "C56",
   "status": "proved",
   "theorems": [
    "DHG.Props.C56_training_triplet",
    "DHG.Props.C56_training_triplet_strict",
    "DHG.Props.C56_no_negative_never_returns",
    "DHG.Props.C56_test_record",
    "DHG.Props.C56_length",
    "DHG.Props.C56_phase_checked"
   ],
   "note": ""
  },
  {
   "property": "C57",
   "status": "proved",
   "theorems": [
    "DHG.Props.C57_binomial",
    "DHG.Props.C57_binomial_outside"
   ],
   "note": ""
  },
  {
   "property": "C58",
   "status": "proved",
   "theorems": [
    "DHG.Props.C58_sparse_dropout",
    "DHG.Props.C58_sparse_dropout_entry",
    "DHG.Props.C58_sparse_dropout_zero",
    "DHG.Props.C58_sparse_dropout_raises"
   ],
   "note": ""
  },
  {
   "property": "C60",
   "status": "partial",
   "theorems": [
    "DHG.Props.C60_precision",
    "DHG.Props.C60_recall",
    "DHG.Props.C60_precision_recall_consistent",
    "DHG.Props.C60_precision_recall_range",
    "DHG.Props.C60_precision_recall_total",
    "DHG.Props.C60_precision_recall_raises",
    "DHG.Props.C60_ndcg",
    "DHG.Props.C60_negative_k_false"
   ],
   "note": "C60_negative_k_false: C60. The range claim fails for a negative `k`: two relevant items, `k = -1`, precision `-1`."
  },
  {
   "property": "C61",
   "status": "partial",
   "theorems": [
    "DHG.Props.C61_average_precision_partial",
    "DHG.Props.C61_k_ignored",
    "DHG.Props.C61_average_precision_range",
    "DHG.Props.C61_map_mrr_rows",
    "DHG.Props.C61_reciprocal_rank_partial",
    "DHG.Props.C61_pr_curve_rows",
    "DHG.Props.C61_pr_curve_mean",
    "DHG.Props.C61_pr_curve_partial",
    "DHG.Props.C61_ap_topk_false",
    "DHG.Props.C61_rr_false",
    "DHG.Props.C61_pr_curve_topk_false"
   ],
   "note": "C61_average_precision_partial: Missing: `k` and `ratio` play no role. | C61_reciprocal_rank_partial: Missing: with several it is not the reciprocal of the first, with none it is `nan` instead of 0. | C61_pr_curve_partial: Missing: `k` and `ratio` play no role. | C61_ap_topk_false: C61. `ap` and `map` at `k = 1` depend on what is ranked third: two ground truths that agree on the first place of the ranking by the scores 3, 2, 1. | C61_rr_false: C61. `rr` is not the reciprocal of the first relevant place when several items are relevant (here places 1 and 2 are: 3/4 instead of 1), and it is `nan` instead of 0 when none is. | C61_pr_curve_topk_false: C61. `pr_curve` at `k = 1` depends on what is ranked third."
  },
  {
   "property": "C62",
   "status": "partial",
   "theorems": [
    "DHG.Props.C62_validate_epoch",
    "DHG.Props.C62_validate_repeat",
    "DHG.Props.C62_test_epoch",
    "DHG.Props.C62_test_nothing_added",
    "DHG.Props.C62_whole_is_mean_of_batches",
    "DHG.Props.C62_validate_partition",
    "DHG.Props.C62_test_partition",
    "DHG.Props.C62_same_dictionary",
    "DHG.Props.C62_classification_batches_false",
    "DHG.Props.C62_returned_result_changes_false",
    "DHG.Props.C62_batch_without_relevant_false",
    "DHG.Props.C62_equal_markers_false",
    "DHG.Props.C62_validate_curve_false"
   ],
   "note": "C62_classification_batches_false: C62. Classification evaluators cannot be fed batch by batch: none of the classification metrics takes `ret_batch`, so both calls raise `TypeError`. | C62_returned_result_changes_false: C62 fails for returned test results: a dictionary handed out after one epoch holds the results of the next epoch after the next call. | C62_batch_without_relevant_false: C62 fails for batches without a relevant item: the whole set is accepted, one of its batches is refused. | C62_equal_markers_false: C62 fails for metrics whose parameters agree to four digits: precision for the ratios 0.5 and 0.50001 of two items share one marker, and the reported result, 3/4, is neither that of the first metric (1) nor that of the second (1/2). | C62_validate_curve_false: C62 fails for curves in validation: with the default eleven points, reading the epoch result after adding a batch with at least one sample raises `ValueError`."
  },
  {
   "property": "C63",
   "status": "proved",
   "theorems": [
    "DHG.Props.C63_predictions",
    "DHG.Props.C63_accuracy",
    "DHG.Props.C63_accuracy_raises",
    "DHG.Props.C63_accuracy_range",
    "DHG.Props.C63_accuracy_reorder",
    "DHG.Props.C63_confusion_matrix"
   ],
   "note": ""
  },
  {
   "property": "C70",
   "status": "proved",
   "theorems": [
    "DHG.C70_graph_Gnp",
    "DHG.C70_digraph_Gnp",
    "DHG.C70_bigraph_Gnp",
    "DHG.C70_uniform_hypergraph_Gnp",
    "DHG.C70_prob_zero",
    "DHG.C70_prob_one",
    "DHG.C70_refuses"
   ],
   "note": ""
  },
  {
   "property": "C71",
   "status": "partial",
   "theorems": [
    "DHG.C71_graph_Gnm",
    "DHG.C71_graph_Gnm_refuses",
    "DHG.C71_graph_Gnm_complete_false",
    "DHG.C71_graph_Gnm_returns_partial",
    "DHG.C71_digraph_Gnm",
    "DHG.C71_digraph_Gnm_refuses",
    "DHG.C71_digraph_Gnm_complete_false",
    "DHG.C71_digraph_Gnm_returns_partial",
    "DHG.C71_bigraph_Gnm",
    "DHG.C71_bigraph_Gnm_refuses",
    "DHG.C71_bigraph_Gnm_returns",
    "DHG.C71_uniform_hypergraph_Gnm",
    "DHG.C71_uniform_hypergraph_Gnm_overfull_false",
    "DHG.C71_uniform_hypergraph_Gnm_too_large",
    "DHG.C71_uniform_hypergraph_Gnm_refuses",
    "DHG.C71_uniform_hypergraph_Gnm_returns",
    "DHG.C71_hypergraph_Gnm",
    "DHG.C71_hypergraph_Gnm_overfull_false",
    "DHG.C71_hypergraph_Gnm_no_error"
   ],
   "note": "C71_graph_Gnm_complete_false: C71 (`graph_Gnm`) fails at the bound: the complete graph, `num_e = num_v (num_v - 1) / 2`, is refused although the documentation only excludes larger values. | C71_graph_Gnm_returns_partial: Missing: `num_e` equal to the number of pairs, which raises (`C71_graph_Gnm_complete_false`). | C71_digraph_Gnm_complete_false: C71 (`digraph_Gnm`) fails at the bound: the complete directed graph is refused. | C71_digraph_Gnm_returns_partial: Missing: `num_e` equal to the number of pairs, which raises (`C71_digraph_Gnm_complete_false`). | C71_uniform_hypergraph_Gnm_overfull_false: C71 (`uniform_hypergraph_Gnm`) fails for impossible counts: with more hyperedges than there are sets of `k` vertices the call is not refused and never returns, whatever the draws. | C71_hypergraph_Gnm_overfull_false: C71 (`hypergraph_Gnm`) fails for impossible counts: a call asking for more hyperedges than there are sets of at least two vertices never returns a hypergraph."
  },
  {
   "property": "C72",
   "status": "partial",
   "theorems": [
    "DHG.C72_graph_Gnp_fast_partial",
    "DHG.C72_digraph_Gnp_fast_partial",
    "DHG.C72_prob_one_false",
    "DHG.C72_prob_zero_false"
   ],
   "note": "C72_graph_Gnp_fast_partial: Missing: the probabilities 0 and 1, see the two theorems below. | C72_digraph_Gnp_fast_partial: Missing: the probabilities 0 and 1. | C72_prob_one_false: C72 fails at probability one: the documented value is accepted by the check and then raises `ValueError` (`log 0`), whatever the draws. | C72_prob_zero_false: C72 fails at probability zero: the call raises `ZeroDivisionError` at the first draw instead of returning a graph without edges."
  },
  {
   "property": "C80",
   "status": "proved",
   "theorems": [
    "DHG.C80_verified",
    "DHG.C80_existing",
    "DHG.C80_corrupted_deleted",
    "DHG.C80_other_files"
   ],
   "note": ""
  },
  {
   "property": "C81",
   "status": "partial",
   "theorems": [
    "DHG.C81_requests",
    "DHG.C81_recovers_partial",
    "DHG.C81_fresh",
    "DHG.C81_retries",
    "DHG.C81_gives_up",
    "DHG.C81_outside_cache_false",
    "DHG.C81_next_call_false",
    "DHG.C81_refused"
   ],
   "note": "C81_recovers_partial: Missing: the very next call succeeds, see `C81_next_call_false`. | C81_outside_cache_false: C81 fails for files outside the cache directory (a custom `data_root`): a missing file raises `ValueError` before any request is made, however well the network works. | C81_next_call_false: C81 fails as stated: after a process killed during the transfer, the next call on a working network raises `ValueError` (it finds the truncated file); only the call after that succeeds."
  },
  {
   "property": "C82",
   "status": "partial",
   "theorems": [
    "DHG.C82_raw_then",
    "DHG.C82_get_then",
    "DHG.C82_parsed_once",
    "DHG.C82_unknown",
    "DHG.C82_plain",
    "DHG.C82_parsed_verified",
    "DHG.C82_failure",
    "DHG.C82_none_false",
    "DHG.C82_custom_root_false"
   ],
   "note": "C82_none_false: C82. \"At most once\" fails for a loader that answers `None`: the absent value and the value `None` are not told apart, and every request parses again. | C82_custom_root_false: C82. With a `data_root` outside the cache directory a missing file is never downloaded: the request raises, whatever the network would have answered."
  },
  {
   "property": "C83",
   "status": "partial",
   "theorems": [
    "DHG.C83_compose",
    "DHG.C83_norm_direction",
    "DHG.C83_norm_zero_rows",
    "DHG.C83_norm_default",
    "DHG.C83_norm_pow",
    "DHG.C83_norm_one",
    "DHG.C83_norm_inf",
    "DHG.C83_norm_other_false",
    "DHG.C83_scaler",
    "DHG.C83_scaler_constant_false",
    "DHG.C83_scaler_range"
   ],
   "note": "C83_norm_other_false: C83. Not for every order: with `ord=0` rows do not get norm 1, and with `ord=-inf` a row with one zero entry is wiped out. | C83_scaler_constant_false: C83. A matrix whose entries are all equal is refused with a `ZeroDivisionError`."
  },
  {
   "property": "C84",
   "status": "partial",
   "theorems": [
    "DHG.C84_maximize",
    "DHG.C84_pruned",
    "DHG.C84_config",
    "DHG.C84_minimize_false",
    "DHG.C84_no_score_false"
   ],
   "note": "C84_minimize_false: C84. The part about `minimize` is false: whatever the scores, an experiment that is not pruned raises an `AttributeError` after the last epoch and leaves an empty file in place of the model. | C84_no_score_false: C84. So does an experiment whose scores are all NaN, or that has no epoch."
  },
  {
   "property": "C85",
   "status": "partial",
   "theorems": [
    "DHG.C85_removal",
    "DHG.C85_run",
    "DHG.C85_all_pruned_false",
    "DHG.C85_minimize_false"
   ],
   "note": "C85_all_pruned_false: C85. When all trials are pruned the run raises a `ValueError`: there is no best trial. | C85_minimize_false: C85. A run with direction `minimize` fails at its first trial that is not pruned."
  },
  {
   "property": "C90",
   "status": "partial",
   "theorems": [
    "DHG.Props.C90_gat_average_partial",
    "DHG.Props.C90_gcn_conv",
    "DHG.Props.C90_gin_conv",
    "DHG.Props.C90_sage_conv",
    "DHG.Props.C90_gat_conv_partial",
    "DHG.Props.C90_gat_single_false"
   ],
   "note": "C90_gat_average_partial: Missing: exactly one stored adjacency entry (`C90_gat_single_false`). | C90_gat_conv_partial: Missing: a graph with exactly one stored adjacency entry, i.e. a single self loop (`C90_gat_single_false`). | C90_gat_single_false: C90 is false for `GATConv` on a graph with a single self loop: `.squeeze()` removes the only dimension of the scores and the call raises `IndexError`."
  },
  {
   "property": "C91",
   "status": "partial",
   "theorems": [
    "DHG.Props.C91_unigat_average_partial",
    "DHG.Props.C91_hgnn_conv_partial",
    "DHG.Props.C91_jh_conv_partial",
    "DHG.Props.C91_hgnnp_conv_partial",
    "DHG.Props.C91_hnhn_conv_partial",
    "DHG.Props.C91_unisage_conv_partial",
    "DHG.Props.C91_unigin_conv_partial",
    "DHG.Props.C91_unigin_conv_false",
    "DHG.Props.C91_unigcn_conv_partial",
    "DHG.Props.C91_unigcn_conv_false",
    "DHG.Props.C91_unigat_conv_partial",
    "DHG.Props.C91_unigat_single_false",
    "DHG.Props.C91_hypergcn_conv_cached",
    "DHG.Props.C91_hypergcn_conv_partial",
    "DHG.Props.C91_hypergraph_unchanged"
   ],
   "note": "C91_unigat_average_partial: Missing: exactly one incidence (`C91_unigat_single_false`), a hypergraph without groups. | C91_hgnn_conv_partial: Missing: a hypergraph without groups. | C91_jh_conv_partial: Missing: a hypergraph without groups; layers changing the number of channels, where the sum raises or broadcasts. | C91_hgnnp_conv_partial: Missing: a hypergraph without groups. | C91_hnhn_conv_partial: Missing: a hypergraph without groups. | C91_unisage_conv_partial: Missing: a hypergraph without groups. | C91_unigin_conv_partial: Missing: `eps ≠ 0` (`C91_unigin_conv_false`), a hypergraph without groups. | C91_unigin_conv_false: C91 is false for `UniGINConv` with `eps ≠ 0`: with two vertices, the hyperedge `{1}` and `eps = 1`, vertex 0 keeps its features unscaled. | C91_unigcn_conv_partial: Missing: hyperedges of weight 0 (`C91_unigcn_conv_false`), a hypergraph without groups. | C91_unigcn_conv_false: C91 is false for `UniGCNConv` with a hyperedge of weight 0: its average degree is `0 / 0` and the result contains NaN. | C91_unigat_conv_partial: Missing: exactly one incidence (`C91_unigat_single_false`), a hypergraph without groups. | C91_unigat_single_false: C91 is false for `UniGATConv` on a hypergraph with a single incidence: `.squeeze()` removes the only dimension of the scores and the call raises `IndexError`. | C91_hypergcn_conv_partial: Missing: the hypergraphs excluded there."
  },
  {
   "property": "C92",
   "status": "partial",
   "theorems": [
    "DHG.Props.C92_bpr_value",
    "DHG.Props.C92_bpr_positive",
    "DHG.Props.C92_bpr_monotone_partial",
    "DHG.Props.C92_bpr_softplus_false",
    "DHG.Props.C92_bpr_arguments"
   ],
   "note": "C92_bpr_monotone_partial: Missing: `softplus` with differences of weighted scores above torch's threshold 20 (`C92_bpr_softplus_false`). | C92_bpr_softplus_false: C92 is false with `softplus`: torch switches to the identity above 20, so a negative score slightly above 20 has a lower loss than a negative score of 20."
  },
  {
   "property": "C95",
   "status": "partial",
   "theorems": [
    "DHG.Props.C95_fill_sizes",
    "DHG.Props.C95_fill_strength",
    "DHG.Props.C95_fill_color_partial",
    "DHG.Props.C95_fill_color_false",
    "DHG.Props.C95_layout_partial",
    "DHG.Props.C95_bipartite_layout_partial",
    "DHG.Props.C95_layout_false",
    "DHG.Props.C95_font_size_false"
   ],
   "note": "C95_fill_color_partial: Missing: lists of the wrong length, which are not refused (`C95_fill_color_false`). | C95_fill_color_false: C95 fails for colours: a list with a wrong number of colours is accepted, although a list with a wrong number of sizes is refused. | C95_layout_partial: Missing: the coordinates can be NaN, when all points agree in one of them (`C95_layout_false`). | C95_bipartite_layout_partial: Missing: NaN coordinates. | C95_layout_false: C95 fails for a single vertex: the layout of a hypergraph with one vertex and one hyperedge is NaN, for all draws and strengths. | C95_font_size_false: C95 fails for the font size of `draw_graph` and `draw_digraph`: the argument has no effect."
  },
  {
   "property": "C64",
   "status": "partial",
   "theorems": [
    "DHG.Props.C64_bigraph_edge_set",
    "DHG.Props.C64_digraph_edge_set_partial",
    "DHG.Props.C64_digraph_stored_edge_set"
   ],
   "note": "C64_digraph_edge_set_partial: Missing: histories that reverse a graph whose listing is cached (see `C29_digraph_fresh_false`)."
  },
  {
   "property": "C65",
   "status": "proved",
   "theorems": [
    "DHG.Props.C65_bigraph_LGCN"
   ],
   "note": ""
  },
  {
   "property": "C49",
   "status": "partial",
   "theorems": [
    "DHG.Props.C49_knn_partial",
    "DHG.Props.C49_knn_refused",
    "DHG.Props.C49_knn_own_false",
    "DHG.Props.C49_knn_count_false",
    "DHG.Props.C49_add_knn",
    "DHG.Props.C49_add_knn_weights"
   ],
   "note": "C49_knn_partial: Missing: the own vertex when other rows have the same features (`C49_knn_own_false`). | C49_knn_own_false: C49 is false about the own vertex: with equal features vertex 0 may be in no hyperedge. | C49_knn_count_false: C49 is false about the number of hyperedges: rows with equal features give equal hyperedges, which are merged."
  },
  {
   "property": "C66",
   "status": "proved",
   "theorems": [
    "DHG.Props.C66_smoothing",
    "DHG.Props.C66_smoothing_raises",
    "DHG.Props.C66_smoothing_shape",
    "DHG.Props.C66_graph_smoothing_laplacian"
   ],
   "note": ""
  },
  {
   "property": "C73",
   "status": "proved",
   "theorems": [
    "DHG.C73_custom_sizes",
    "DHG.C73_refuses"
   ],
   "note": ""
  },
  {
   "property": "C74",
   "status": "proved",
   "theorems": [
    "DHG.C74_normal_features",
    "DHG.C74_rank",
    "DHG.C74_no_noise",
    "DHG.C74_refuses"
   ],
   "note": ""
  },
  {
   "property": "C86",
   "status": "partial",
   "theorems": [
    "DHG.C86_txt",
    "DHG.C86_txt_no_newline",
    "DHG.C86_blank_false",
    "DHG.C86_txt_errors",
    "DHG.C86_txt_names",
    "DHG.C86_pickle"
   ],
   "note": "C86_blank_false: C86. A blank line is not skipped: it becomes a row with one empty field, which `int` and `float` refuse. So is every run of two separators."
  },
  {
   "property": "C93",
   "status": "partial",
   "theorems": [
    "DHG.Props.C93_reg_value",
    "DHG.Props.C93_reg_nonneg_partial",
    "DHG.Props.C93_reg_nonneg_false",
    "DHG.Props.C93_reg_scale"
   ],
   "note": "C93_reg_nonneg_partial: Missing: odd powers (`C93_reg_nonneg_false`). | C93_reg_nonneg_false: C93 is false for odd powers: the powers are not of absolute values, and the regularisation of a negative embedding is negative."
  },
  {
   "property": "C94",
   "status": "proved",
   "theorems": [
    "DHG.Props.C94_mlp_rowwise",
    "DHG.Props.C94_mlp_refuses",
    "DHG.Props.C94_multi_head",
    "DHG.Props.C94_no_heads"
   ],
   "note": ""
  },
  {
   "property": "C96",
   "status": "partial",
   "theorems": [
    "DHG.Props.C96_lightgcn",
    "DHG.Props.C96_lightgcn_local",
    "DHG.Props.C96_ngcf",
    "DHG.Props.C96_dhcf_partial",
    "DHG.Props.C96_layer_norms"
   ],
   "note": "C96_dhcf_partial: Missing: hypergraphs without hyperedge groups, on which `smoothing_with_HGNN` raises."
  },
  {
   "property": "C97",
   "status": "partial",
   "theorems": [
    "DHG.Props.C97_graph_models",
    "DHG.Props.C97_hypergraph_models",
    "DHG.Props.C97_hypergcn_partial",
    "DHG.Props.C97_hypergcn_fast_false",
    "DHG.Props.C97_recommenders"
   ],
   "note": "C97_hypergcn_partial: Missing: the dependence on the hypergraph for `fast=True`, where it is false (`C97_hypergcn_fast_false`). | C97_hypergcn_fast_false: C97 fails for `HyperGCN` with `fast=True`: a call on a hypergraph that would succeed raises because the model was called before, on another hypergraph."
  },
  {
   "property": "C98",
   "status": "partial",
   "theorems": [
    "DHG.Props.C98_polar_angle",
    "DHG.Props.C98_tangent",
    "DHG.Props.C98_exists_partial",
    "DHG.Props.C98_outlines",
    "DHG.Props.C98_rings_differ",
    "DHG.Props.C98_close_false",
    "DHG.Props.C98_draw_graph",
    "DHG.Props.C98_draw_bigraph",
    "DHG.Props.C98_labels_false",
    "DHG.Props.C98_labels"
   ],
   "note": "C98_exists_partial: Missing: in the other case the call fails and nothing is drawn (`C98_close_false`). | C98_close_false: C98 fails for points close to each other: with the unit sizes 0.1 and 0.01, two vertices at distance 0.05 and the hyperedge of both, nothing is drawn. | C98_labels_false: C98 fails for labels in `draw_bigraph`: labels given for one side only are not drawn at all."
  },
  {
   "property": "C99",
   "status": "partial",
   "theorems": [
    "DHG.Props.C99_moves_bounded",
    "DHG.Props.C99_determined",
    "DHG.Props.C99_edge_centre",
    "DHG.Props.C99_bipartite_false"
   ],
   "note": "C99_bipartite_false: C99 fails for `draw_bigraph`: the vertices of the second side are not renumbered before the layout. Two different bipartite graphs get the same layout, and the centre of an edge is not the mean of its two ends."
  },
  {
   "property": "C67",
   "status": "partial",
   "theorems": [
    "DHG.C67_graph_on_device",
    "DHG.C67_graph_to",
    "DHG.C67_graph_messages",
    "DHG.C67_graph_hops_false",
    "DHG.C67_digraph_on_device_partial",
    "DHG.C67_digraph_messages_partial",
    "DHG.C67_digraph_edgeless_false",
    "DHG.C67_bigraph_on_device_partial",
    "DHG.C67_bigraph_messages_partial",
    "DHG.C67_bigraph_laplacian_false",
    "DHG.C67_bigraph_smoothing_false",
    "DHG.C67_bigraph_edgeless_false",
    "DHG.C67_hypergraph_edges_on_device",
    "DHG.C67_hypergraph_never_elsewhere_partial",
    "DHG.C67_hypergraph_moved_first_partial",
    "DHG.C67_hypergraph_move_false",
    "DHG.C67_hypergraph_group_false",
    "DHG.C67_hypergraph_add_false",
    "DHG.C67_hypergraph_smoothing_false"
   ],
   "note": "C67_graph_hops_false: C67 fails for the neighbours of a `Graph` within two steps: the power of the adjacency matrix is cached under a name that `to` does not move, so after a first call on the CPU and `to(1)` the answer is still on the CPU. | C67_digraph_on_device_partial: Missing: the adjacency matrices of a graph without edges (`C67_digraph_edgeless_false`). | C67_digraph_messages_partial: Missing: graphs without edges (`C67_digraph_edgeless_false`). | C67_digraph_edgeless_false: C67 fails for a `DiGraph` without edges: its adjacency matrix is made on the CPU whatever its device, so message passing on device 1 raises. | C67_bigraph_on_device_partial: Missing: the GCN Laplacian (`C67_bigraph_laplacian_false`) and graphs without edges (`C67_bigraph_edgeless_false`). | C67_bigraph_messages_partial: Missing: graphs without edges (`C67_bigraph_edgeless_false`) and smoothing (`C67_bigraph_smoothing_false`). | C67_bigraph_laplacian_false: C67 fails for the GCN Laplacian of a `BiGraph`: `to` forgets it, so smoothing after a move raises. | C67_bigraph_smoothing_false: C67 fails for smoothing on a `BiGraph`: the features are moved to the graph, not the graph to the features. | C67_bigraph_edgeless_false: C67 fails for a `BiGraph` without edges: `B` is made on the CPU, and `A` cannot be read on another device. | C67_hypergraph_never_elsewhere_partial: Missing: that no exception is raised (`C67_hypergraph_move_false`) and the incidence matrices of groups (`C67_hypergraph_group_false`). | C67_hypergraph_moved_first_partial: Missing: hypergraphs that were read before the move (`C67_hypergraph_move_false`). | C67_hypergraph_move_false: C67 fails for a `Hypergraph` that was used before it is moved: after reading `H` on the CPU and `to(1)`, the vertex degrees and the HGNN Laplacian cannot be read. | C67_hypergraph_group_false: C67 fails for the incidence matrix of one group: after reading `H` on the CPU and `to(1)` it is still on the CPU. | C67_hypergraph_add_false: C67 fails for a `Hypergraph` that gets a new group after the move: then even `H` cannot be read. | C67_hypergraph_smoothing_false: C67 fails for features on another device: unlike message passing, smoothing moves the features to the hypergraph."
  },
  {
   "property": "C68",
   "status": "partial",
   "theorems": [
    "DHG.Props.C68_bgnn",
    "DHG.Props.C68_bgnn_range",
    "DHG.Props.C68_channels",
    "DHG.Props.C68_training",
    "DHG.Props.C68_influence_false"
   ],
   "note": "C68_influence_false: C68 fails in that not every argument and layer matters: the left features passed in have no influence on the result of a model with at least one layer, and neither has the last layer of a model with an even number of layers, as only the left features are returned."
  },
  {
   "property": "C75",
   "status": "partial",
   "theorems": [
    "DHG.C75_euclidean_partial",
    "DHG.C75_poincare_partial",
    "DHG.C75_animations_partial",
    "DHG.C75_dim_raises",
    "DHG.C75_same_direction_false"
   ],
   "note": "C75_euclidean_partial: Missing: a reduction with a constant column. | C75_poincare_partial: Missing: as above. | C75_animations_partial: Missing: as above. | C75_same_direction_false: C75 fails for the picture in the Poincaré ball of embeddings that all point in one direction: no vertex is drawn, as all coordinates are NaN."
  },
  {
   "property": "C76",
   "status": "partial",
   "theorems": [
    "DHG.C76_poincare_partial",
    "DHG.C76_clip",
    "DHG.C76_inverse",
    "DHG.C76_scale",
    "DHG.C76_raises",
    "DHG.C76_same_direction_false"
   ],
   "note": "C76_poincare_partial: Missing: a reduction with a constant column. | C76_same_direction_false: C75, C76 fail for embeddings that all point in the same direction: with a reduction that maps equal rows to equal rows, every coordinate of the projection and of the picture is NaN."
  },
  {
   "property": "C69",
   "status": "partial",
   "theorems": [
    "DHG.C69_reproducible",
    "DHG.C69_seed",
    "DHG.C69_libraries",
    "DHG.C69_last",
    "DHG.C69_refused_false",
    "DHG.C69_experiment_partial",
    "DHG.C69_experiment_false"
   ],
   "note": "C69_refused_false: C69 fails for seeds out of the range of numpy: `set_seed` raises `ValueError`, but `seed()` answers the refused seed afterwards, and of the three generators only that of `random` is seeded. | C69_experiment_false: C69 fails for experiments without a seed: the second call of `seed()` may fall in the next second, so that the seed logged is not the one used."
  },
  {
   "property": "C77",
   "status": "partial",
   "theorems": [
    "DHG.C77_terminal",
    "DHG.C77_file_partial",
    "DHG.C77_other_files",
    "DHG.C77_refused",
    "DHG.C77_twice_false"
   ],
   "note": "C77_file_partial: Missing: the same file attached several times. | C77_twice_false: C77 fails for a file that is attached twice, as by running a cell of a notebook again: it gets every text twice."
  },
  {
   "property": "C78",
   "status": "partial",
   "theorems": [
    "DHG.C78_training",
    "DHG.C78_selection",
    "DHG.C78_testing",
    "DHG.C78_best",
    "DHG.C78_test",
    "DHG.C78_report_partial",
    "DHG.C78_report_false"
   ],
   "note": "C78_report_partial: Missing: metrics that are not numbers. | C78_report_false: C78 fails for a metric that is not a number, such as the confusion matrix: the run raises `TypeError` at the end, when all trials are done, the best model is loaded, and the test results are computed."
  },
  {
   "property": "C79",
   "status": "partial",
   "theorems": [
    "DHG.C79_validate",
    "DHG.C79_users",
    "DHG.C79_test_partial",
    "DHG.C79_device_false",
    "DHG.C79_training",
    "DHG.C79_no_structure_false",
    "DHG.C79_interrupted_false",
    "DHG.C79_leak_false"
   ],
   "note": "C79_test_partial: Missing: a loader whose tensors are on another device. | C79_device_false: C79 fails for a task on another device than its loader: validation works (`C79_validate`), but every test raises `RuntimeError`, and so does the end of every run. | C79_no_structure_false: C79. Without a structure (the model needs none), experiments fail with `KeyError` when they save their structure: no run of a task without `structure` in its data and without a `structure_builder` succeeds. | C79_interrupted_false: C79 fails after a validation that was interrupted by an exception: the batches scored before count in the next result. | C79_leak_false: C79 fails for the choice of the best model: it is made with the data the model is tested on. Two tasks that differ in the test items of a user only return models of different epochs."
  },
  {
   "property": "C87",
   "status": "partial",
   "theorems": [
    "DHG.C87_overwrite",
    "DHG.C87_continue_partial",
    "DHG.C87_no_root",
    "DHG.C87_none_false",
    "DHG.C87_same_second_false",
    "DHG.C87_shared_log_false"
   ],
   "note": "C87_continue_partial: Missing: a log to which an earlier task of the same program still writes. | C87_none_false: C87 fails for `work_root=None`, which the signature allows: it raises `TypeError`. | C87_same_second_false: C87 fails for tasks without a name created within one second: the second task takes the directory of the first, and everything in it is gone. | C87_shared_log_false: C87 fails for logs: what one task logs is written to the logs of the tasks created before, too."
  },
  {
   "property": "C59",
   "status": "proved",
   "theorems": [
    "DHG.Props.C59_accepts",
    "DHG.Props.C59_unknown_task",
    "DHG.Props.C59_validate_classification",
    "DHG.Props.C59_test_classification",
    "DHG.Props.C59_validate_recommender",
    "DHG.Props.C59_unknown_parameter",
    "DHG.Props.C59_test_recommender"
   ],
   "note": ""
  },
  {
   "property": "C88",
   "status": "proved",
   "theorems": [
    "DHG.Props.C88_hypergraph_listing",
    "DHG.Props.C88_hypergraph_incidence",
    "DHG.Props.C88_hypergraph_laplacians",
    "DHG.Props.C88_hypergraph_messages",
    "DHG.Props.C88_hgnn_conv",
    "DHG.Props.C88_hgnnp_conv",
    "DHG.Props.C88_hnhn_conv",
    "DHG.Props.C88_unisage_conv",
    "DHG.Props.C88_unigin_conv",
    "DHG.Props.C88_unigcn_conv",
    "DHG.Props.C88_jh_conv",
    "DHG.Props.C88_unigat_conv",
    "DHG.Props.C88_hypergraph_models"
   ],
   "note": ""
  },
  {
   "property": "C89",
   "status": "proved",
   "theorems": [
    "DHG.Props.C89_degrees",
    "DHG.Props.C89_laplacians",
    "DHG.Props.C89_clique_round_trip"
   ],
   "note": ""
  },
  {
   "property": "C100",
   "status": "partial",
   "theorems": [
    "DHG.Props.C100_graph",
    "DHG.Props.C100_digraph",
    "DHG.Props.C100_bigraph",
    "DHG.Props.C100_hypergraph",
    "DHG.Props.C100_update_false"
   ],
   "note": "C100_update_false: C100 fails for the update step called on its own with explicit hyperedge weights: features with a number of rows different from the number of hyperedges are accepted and broadcast."
  },
  {
   "property": "C101",
   "status": "proved",
   "theorems": [
    "DHG.Props.C101_force_layout",
    "DHG.Props.C101_bipartite_force_layout",
    "DHG.Props.C101_succeeds",
    "DHG.Props.C101_renumber"
   ],
   "note": ""
  },
  {
   "property": "C102",
   "status": "proved",
   "theorems": [
    "DHG.Props.C102_graph_stacks",
    "DHG.Props.C102_gat",
    "DHG.Props.C102_gin",
    "DHG.Props.C102_hypergraph_stacks",
    "DHG.Props.C102_unigat",
    "DHG.Props.C102_hypergcn"
   ],
   "note": ""
  },
  {
   "property": "C103",
   "status": "partial",
   "theorems": [
    "DHG.Props.C103_draw_graph_partial",
    "DHG.Props.C103_push_e_false",
    "DHG.Props.C103_draw_bigraph_partial",
    "DHG.Props.C103_bigraph_font_false",
    "DHG.Props.C103_draw_circles_partial",
    "DHG.Props.C103_draw_hypergraph_partial",
    "DHG.Props.C103_font_size_false",
    "DHG.Props.C103_defaults"
   ],
   "note": "C103_draw_graph_partial: Missing: the font size and `push_e_strength`, which have no effect (`C95_font_size_false`, `C103_push_e_false`). | C103_push_e_false: C103 fails for `push_e_strength` of `draw_graph`, `draw_digraph` and `draw_bigraph`: it has no effect. | C103_draw_bigraph_partial: Missing: the labels get one font size for both sides (`C103_bigraph_font_false`), none are drawn if only one side has labels (`C98_labels_false`), and `push_e_strength` has no effect. | C103_bigraph_font_false: C103 fails for the font sizes of `draw_bigraph`: all labels are larger than asked for, for both sides, since the two sizes are added. | C103_draw_circles_partial: Missing: as with lines. | C103_draw_hypergraph_partial: Missing: the font size, which has no effect (`C103_font_size_false`). | C103_font_size_false: C103 fails for the font size of `draw_hypergraph` and of `draw_graph` with circles: it has no effect."
  },
  {
   "property": "C104",
   "status": "partial",
   "theorems": [
    "DHG.Props.C104_content",
    "DHG.Props.C104_numbers_partial",
    "DHG.Props.C104_numbers_false",
    "DHG.Props.C104_authentic",
    "DHG.Props.C104_types",
    "DHG.Props.C104_apart",
    "DHG.Props.C104_distinct_partial",
    "DHG.Props.C104_masks_false",
    "DHG.Props.C104_obtained"
   ],
   "note": "C104_numbers_partial: Missing: seven numbers of seven classes (`C104_numbers_false`). | C104_numbers_false: C104 fails for seven numbers: the dataset answers another number than the documentation says. | C104_distinct_partial: Missing: the validation and the test mask of five datasets (`C104_masks_false`). | C104_masks_false: C104 fails for five datasets: their test mask is their validation mask. As long as no two files have the same checksum, whatever `data[\"val_mask\"]` answers in any session is what `data[\"test_mask\"]` answers in any session, with any network and disk."
  },
  {
   "property": "C105",
   "status": "partial",
   "theorems": [
    "DHG.Props.C105_graph",
    "DHG.Props.C105_graph_GCN",
    "DHG.Props.C105_graph_listing",
    "DHG.Props.C105_digraph",
    "DHG.Props.C105_bigraph",
    "DHG.Props.C105_hypergraph_matrices",
    "DHG.Props.C105_hypergraph_edges",
    "DHG.Props.C105_hypergraph_v2e",
    "DHG.Props.C105_hypergraph_e2v",
    "DHG.Props.C105_hypergraph_v2v",
    "DHG.Props.C105_graph_histories",
    "DHG.Props.C105_digraph_histories_partial",
    "DHG.Props.C105_bigraph_histories",
    "DHG.Props.C105_hypergraph_histories_partial",
    "DHG.Props.C105_graph_flag_matters",
    "DHG.Props.C105_digraph_histories_false",
    "DHG.Props.C105_hypergraph_histories_false"
   ],
   "note": "C105_digraph_histories_partial: Missing: histories with `reverse_direction`, which leaves stale results (`C105_digraph_histories_false`). | C105_hypergraph_histories_partial: Missing: histories in which a call with an unknown `merge_op` fails halfway (`C105_hypergraph_histories_false`). | C105_digraph_histories_false: C105 (DiGraph) fails for histories with `reverse_direction`: two directed graphs with the same edges, one of which has been read, give different adjacency matrices after `reverse_direction()`. | C105_hypergraph_histories_false: C105 (Hypergraph) fails when a call with an unknown `merge_op` raises halfway: of two hypergraphs with the same hyperedges the one that has been read before lists three hyperedges afterwards, the other one four."
  },
  {
   "property": "C106",
   "status": "partial",
   "theorems": [
    "DHG.Props.C106_graph_data",
    "DHG.Props.C106_digraph_data",
    "DHG.Props.C106_bigraph_data",
    "DHG.Props.C106_hypergraph_data",
    "DHG.Props.C106_graph_untouched_partial",
    "DHG.Props.C106_digraph_untouched_partial",
    "DHG.Props.C106_bigraph_untouched_partial",
    "DHG.Props.C106_hypergraph_untouched_partial",
    "DHG.Props.C106_graph_refreshed",
    "DHG.Props.C106_digraph_refreshed",
    "DHG.Props.C106_bigraph_refreshed",
    "DHG.Props.C106_hypergraph_refreshed",
    "DHG.Props.C106_graph_live_false",
    "DHG.Props.C106_digraph_live_false",
    "DHG.Props.C106_bigraph_live_false",
    "DHG.Props.C106_hypergraph_live_false"
   ],
   "note": "C106_graph_live_false: C106 does not hold in full: writing to the list returned by `g.e` changes what `g.e` returns later. | C106_digraph_live_false: C106 does not hold in full: writing to the list returned by `g.e` changes what `g.e` returns later. | C106_bigraph_live_false: C106 does not hold in full: writing to the list returned by `g.e` changes what `g.e` returns later. | C106_hypergraph_live_false: C106 does not hold in full: writing to the list returned by `hg.v` changes what `hg.v` returns later."
  },
  {
   "property": "C107",
   "status": "partial",
   "theorems": [
    "DHG.Props.C107_elsewhere",
    "DHG.Props.C107_data",
    "DHG.Props.C107_unshared_partial",
    "DHG.Props.C107_default_weights",
    "DHG.Props.C107_shared_false",
    "DHG.Props.C107_returned_false"
   ],
   "note": "C107_shared_false: C107 does not hold in full: an assignment to the list given to the constructor changes the weights of two hypergraphs. | C107_returned_false: C107 does not hold in full: an assignment to the list returned by `v_weight` changes the weights, and leaves the `W_v` that was computed before as it is."
  },
  {
   "property": "C108",
   "status": "proved",
   "theorems": [
    "DHG.Props.C108_same_hypergraphs",
    "DHG.Props.C108_lists",
    "DHG.Props.C108_copies",
    "DHG.Props.C108_lists_may_change"
   ],
   "note": ""
  },
  {
   "property": "C109",
   "status": "partial",
   "theorems": [
    "DHG.Props.C109_graph",
    "DHG.Props.C109_hypergraph",
    "DHG.Props.C109_digraph_result",
    "DHG.Props.C109_bigraph_result",
    "DHG.Props.C109_digraph_partial",
    "DHG.Props.C109_bigraph_partial",
    "DHG.Props.C109_digraph_false",
    "DHG.Props.C109_bigraph_false"
   ],
   "note": "C109_digraph_partial: Missing: the same without this hypothesis, which fails, see `C109_digraph_false`. | C109_bigraph_partial: Missing: the same without this hypothesis, which fails, see `C109_bigraph_false`. | C109_digraph_false: C109 is false for directed graphs: `Hypergraph(3, g.e[0])` turns an edge of `g` round. Then `g` lists the edges, and has the adjacency matrix, of another graph. | C109_bigraph_false: C109 is false for bipartite graphs: `Hypergraph(3, g.e[0])` exchanges the ends of an edge of `g`."
  },
  {
   "property": "C110",
   "status": "proved",
   "theorems": [
    "DHG.Props.C110_graph",
    "DHG.Props.C110_graph_layers",
    "DHG.Props.C110_graph_fixed",
    "DHG.Props.C110_bigraph",
    "DHG.Props.C110_hypergraph",
    "DHG.Props.C110_hypergraph_layers"
   ],
   "note": ""
  },
  {
   "property": "C111",
   "status": "proved",
   "theorems": [
    "DHG.Props.C111_graph",
    "DHG.Props.C111_graph_layers",
    "DHG.Props.C111_digraph",
    "DHG.Props.C111_hypergraph",
    "DHG.Props.C111_hypergraph_layers"
   ],
   "note": ""
  },
  {
   "property": "C112",
   "status": "proved",
   "theorems": [
    "DHG.Props.C112_precision_recall",
    "DHG.Props.C112_average_precision",
    "DHG.Props.C112_ndcg",
    "DHG.Props.C112_equal_scores_differ"
   ],
   "note": ""
  },
  {
   "property": "C113",
   "status": "proved",
   "theorems": [
    "DHG.Props.C113_graph",
    "DHG.Props.C113_digraph",
    "DHG.Props.C113_bigraph",
    "DHG.Props.C113_hypergraph",
    "DHG.Props.C113_smoothing"
   ],
   "note": ""
  },
  {
   "property": "C114",
   "status": "partial",
   "theorems": [
    "DHG.Props.C114_precision_recall",
    "DHG.Props.C114_average_precision",
    "DHG.Props.C114_reciprocal_rank_partial",
    "DHG.Props.C114_reciprocal_rank_false",
    "DHG.Props.C114_ndcg"
   ],
   "note": "C114_reciprocal_rank_partial: Missing: with a limit the claim is false (`C114_reciprocal_rank_false`). | C114_reciprocal_rank_false: C114 is false for `rr` with a limit on the places: the value is the mean of the reciprocals of *all* relevant places within the limit, so a further relevant item among the first places lowers it."
  },
  {
   "property": "C115",
   "status": "partial",
   "theorems": [
    "DHG.Props.C115_counts_partial",
    "DHG.Props.C115_incidence_partial",
    "DHG.Props.C115_after_error_false",
    "DHG.Props.C115_same_list_false"
   ],
   "note": "C115_after_error_false: The claim needs calls that do not raise. A call that raises in the middle has added the hyperedges before the failure but leaves the old matrices: the object reports three hyperedges and an incidence matrix with two columns. | C115_same_list_false: a list of hyperedges that has been used as an argument without weights cannot be used again, and cannot be the list of sources and of targets of one call: the call has overwritten its elements by tuples, and a list of tuples without weights is not understood"
  },
  {
   "property": "C116",
   "status": "partial",
   "theorems": [
    "DHG.Props.C116_first_partial",
    "DHG.Props.C116_others",
    "DHG.Props.C116_merge_partial",
    "DHG.Props.C116_merge_false",
    "DHG.Props.C116_min_false",
    "DHG.Props.C116_matrices_false"
   ],
   "note": "C116_merge_false: But the weights of the connections are lost: after a hyperedge has been added a second time there is one number instead of one weight per vertex, and a third addition always raises. | C116_min_false: the documented operation `min` (like any name but `mean`, `sum`, `max`) is refused as soon as a hyperedge is added again | C116_matrices_false: the weighted matrices can never be read: `R_v2e`, `R_e2v` raise for every object and every group, and so do `W_v` and `W_e`"
  },
  {
   "property": "C117",
   "status": "partial",
   "theorems": [
    "DHG.Props.C117_removed_partial",
    "DHG.Props.C117_accepted",
    "DHG.Props.C117_default_false",
    "DHG.Props.C117_flat_false"
   ],
   "note": "C117_default_false: without a group name the call always raises, although the documentation says that the hyperedges are then removed from all groups | C117_flat_false: a single hyperedge whose numbers of sources and targets differ cannot be removed when it is written as for `add_hyperedges`, as two flat lists"
  },
  {
   "property": "C118",
   "status": "partial",
   "theorems": [
    "DHG.Props.C118_graph_add_partial",
    "DHG.Props.C118_graph_remove_partial",
    "DHG.Props.C118_graph_new_partial",
    "DHG.Props.C118_graph_adj_list_partial",
    "DHG.Props.C118_graph_false",
    "DHG.Props.C118_digraph_add_partial",
    "DHG.Props.C118_digraph_remove_partial",
    "DHG.Props.C118_digraph_new_partial",
    "DHG.Props.C118_digraph_adj_list_partial",
    "DHG.Props.C118_digraph_false",
    "DHG.Props.C118_bigraph_add_partial",
    "DHG.Props.C118_bigraph_remove_partial",
    "DHG.Props.C118_bigraph_new_partial",
    "DHG.Props.C118_bigraph_adj_list_partial",
    "DHG.Props.C118_bigraph_false",
    "DHG.Props.C118_hypergraph_false"
   ],
   "note": "C118_graph_false: What goes wrong (Graph): negative numbers are accepted; removing the edges of an empty list raises, although adding them does not; one weight for a list of edges (documented: `e_weight: Union[float, List[float]]`) raises. | C118_digraph_false: what goes wrong (DiGraph), as for `Graph` | C118_bigraph_false: what goes wrong (BiGraph), as for `Graph`; besides, a bipartite graph whose first side has no vertices is accepted | C118_hypergraph_false: C118 (Hypergraph): no vertex is checked when hyperedges are added: the call with one hyperedge is accepted whatever its vertices are"
  },
  {
   "property": "C119",
   "status": "proved",
   "theorems": [
    "DHG.Props.C119_graph_L",
    "DHG.Props.C119_graph_connected",
    "DHG.Props.C119_graph_Lrw",
    "DHG.Props.C119_graph_Lsym",
    "DHG.Props.C119_hypergraph_Lrw",
    "DHG.Props.C119_hypergraph_Lsym"
   ],
   "note": ""
  },
  {
   "property": "C120",
   "status": "proved",
   "theorems": [
    "DHG.Props.C120_graph_call",
    "DHG.Props.C120_graph_network",
    "DHG.Props.C120_graph_components",
    "DHG.Props.C120_digraph_call",
    "DHG.Props.C120_digraph_network",
    "DHG.Props.C120_bigraph_call",
    "DHG.Props.C120_hypergraph_call",
    "DHG.Props.C120_hypergraph_network",
    "DHG.Props.C120_hypergraph_components"
   ],
   "note": ""
  },
  {
   "property": "C121",
   "status": "proved",
   "theorems": [
    "DHG.Props.C121_graph_around",
    "DHG.Props.C121_graph_edits",
    "DHG.Props.C121_graph_add_edge",
    "DHG.Props.C121_hypergraph_around",
    "DHG.Props.C121_hypergraph_edits",
    "DHG.Props.C121_digraph_add_edge",
    "DHG.Props.C121_bigraph_add_edge",
    "DHG.Props.C121_digraph_remove_edge",
    "DHG.Props.C121_bigraph_remove_edge",
    "DHG.Props.C121_graph_remove_edge"
   ],
   "note": ""
  },
  {
   "property": "C122",
   "status": "proved",
   "theorems": [
    "DHG.Props.C122_graph_v2v",
    "DHG.Props.C122_graph_smoothing",
    "DHG.Props.C122_digraph_v2v",
    "DHG.Props.C122_hypergraph_v2e",
    "DHG.Props.C122_hypergraph_v2v",
    "DHG.Props.C122_hypergraph_smoothing"
   ],
   "note": ""
  },
  {
   "property": "C123",
   "status": "proved",
   "theorems": [
    "DHG.Props.C123_graph_sum",
    "DHG.Props.C123_graph_mean",
    "DHG.Props.C123_graph_smoothing",
    "DHG.Props.C123_digraph_sum",
    "DHG.Props.C123_digraph_mean",
    "DHG.Props.C123_bigraph_sum",
    "DHG.Props.C123_bigraph_mean",
    "DHG.Props.C123_hypergraph_sum",
    "DHG.Props.C123_hypergraph_mean"
   ],
   "note": ""
  },
  {
   "property": "C124",
   "status": "proved",
   "theorems": [
    "DHG.Props.C124_graph",
    "DHG.Props.C124_graph_layers",
    "DHG.Props.C124_hypergraph",
    "DHG.Props.C124_hypergraph_layers"
   ],
   "note": ""
  },
  {
   "property": "C125",
   "status": "partial",
   "theorems": [
    "DHG.Props.C125_data_on_device_partial",
    "DHG.Props.C125_no_mismatch_partial",
    "DHG.Props.C125_shared_data_false"
   ],
   "note": "C125_data_on_device_partial: Missing: tasks that share data (`C125_shared_data_false`), entries that the caller assigns after making the task, and moving a task after a run. | C125_no_mismatch_partial: Missing: other programs, for which it is false (`C125_shared_data_false`). | C125_shared_data_false: C125 is false for tasks that share their data: after a second task is made for the same dictionary on another device, running the first one fails, which worked before."
  },
  {
   "property": "C126",
   "status": "partial",
   "theorems": [
    "DHG.Props.C126_task_partial",
    "DHG.Props.C126_to_partial",
    "DHG.Props.C126_run_partial",
    "DHG.Props.C126_task_false",
    "DHG.Props.C126_run_false"
   ],
   "note": "C126_task_partial: Missing: the devices (`C126_task_false`). | C126_to_partial: Missing: the devices (`C126_task_false`). | C126_run_partial: Missing: `structure` with a builder (`C126_run_false`). | C126_task_false: C126 is false for the devices: making a task moves the tensors of the caller's dictionary, and the caller's structure. | C126_run_false: C126 is false for `structure` when the task builds structures itself: after a run the caller's dictionary has the structure of the last trial in place of the caller's one."
  },
  {
   "property": "C127",
   "status": "partial",
   "theorems": [
    "DHG.Props.C127_calls_as_documented_partial",
    "DHG.Props.C127_keyword_calls_partial",
    "DHG.Props.C127_task_constructors_partial",
    "DHG.Props.C127_graph_task_partial",
    "DHG.Props.C127_misdocumented_false",
    "DHG.Props.C127_graph_task_false",
    "DHG.Props.C127_HyperGCN_false",
    "DHG.Props.C127_uniform_hypergraph_Gnp_false",
    "DHG.Props.C127_defaults_false"
   ],
   "note": "C127_calls_as_documented_partial: Missing: the functions in `Spec.misdocumented` (the theorems `C127_…_false`), and functions with `*args` or `**kwargs`. | C127_keyword_calls_partial: Missing: positional arguments (`C127_HyperGCN_false`, `C127_uniform_hypergraph_Gnp_false`). | C127_task_constructors_partial: Missing: `GraphVertexClassificationTask` (`C127_graph_task_false`). | C127_graph_task_partial: Missing: `structure_builder` (`C127_graph_task_false`). | C127_misdocumented_false: C127 is false for each function in `Spec.misdocumented`: there is a call as documented that fails or does not do what the documentation says. | C127_graph_task_false: C127 is false for `GraphVertexClassificationTask`, which documents `structure_builder`: by keyword it is a `TypeError`, by position it becomes the name of the study and there is no builder. | C127_HyperGCN_false: C127 is false for `HyperGCN` by position: the documented `fast` goes to the undocumented `use_bn`, and the documented `drop_rate` to `fast`. | C127_uniform_hypergraph_Gnp_false: C127 is false for `uniform_hypergraph_Gnp` by position: the documented order is `num_v`, `k`, the order of the signature `k`, `num_v`. | C127_defaults_false: C127 is false for two defaults: `method` of `hypergraph_Gnm` and `U_as_vertex` of `add_hyperedges_from_bigraph`."
  },
  {
   "property": "C128",
   "status": "proved",
   "theorems": [
    "DHG.Props.C128_digraph_reads",
    "DHG.Props.C128_digraph_neighbours",
    "DHG.Props.C128_digraph_v2v",
    "DHG.Props.C128_bigraph_reads",
    "DHG.Props.C128_bigraph_neighbours",
    "DHG.Props.C128_bigraph_messages",
    "DHG.Props.C128_bigraph_GCN",
    "DHG.Props.C128_lightgcn",
    "DHG.Props.C128_ngcf",
    "DHG.Props.C128_dhcf"
   ],
   "note": ""
  },
  {
   "property": "C129",
   "status": "proved",
   "theorems": [
    "DHG.Props.C129_graph_networks",
    "DHG.Props.C129_graph_matrices",
    "DHG.Props.C129_graph_built",
    "DHG.Props.C129_hypergraph_networks",
    "DHG.Props.C129_hypergraph_built"
   ],
   "note": ""
  },
  {
   "property": "C130",
   "status": "proved",
   "theorems": [
    "DHG.Props.C130_discriminator",
    "DHG.Props.C130_adversarial",
    "DHG.Props.C130_mlp",
    "DHG.Props.C130_adversarial_returns",
    "DHG.Props.C130_mlp_returns",
    "DHG.Props.C130_equilibrium",
    "DHG.Props.C130_bounds",
    "DHG.Props.C130_mlp_loss",
    "DHG.Props.C130_mlp_floor"
   ],
   "note": ""
  },
  {
   "property": "C131",
   "status": "proved",
   "theorems": [
    "DHG.Props.C131_values",
    "DHG.Props.C131_mean",
    "DHG.Props.C131_mean_curve",
    "DHG.Props.C131_validate",
    "DHG.Props.C131_test",
    "DHG.Props.C131_test_epoch"
   ],
   "note": ""
  },
  {
   "property": "C132",
   "status": "proved",
   "theorems": [
    "DHG.Props.C132_graph_new",
    "DHG.Props.C132_graph_proportional",
    "DHG.Props.C132_graph_invariant",
    "DHG.Props.C132_graph_sage",
    "DHG.Props.C132_graph_LGCN_differs",
    "DHG.Props.C132_digraph",
    "DHG.Props.C132_bigraph",
    "DHG.Props.C132_hypergraph_matrices",
    "DHG.Props.C132_hypergraph_v2v",
    "DHG.Props.C132_hypergraph_layers"
   ],
   "note": ""
  },
  {
   "property": "C133",
   "status": "partial",
   "theorems": [
    "DHG.Props.C133_graph_Gnp",
    "DHG.Props.C133_graph_Gnp_fast_partial",
    "DHG.Props.C133_digraph_Gnp",
    "DHG.Props.C133_bigraph_Gnp",
    "DHG.Props.C133_uniform_hypergraph_Gnp",
    "DHG.Props.C133_digraph_Gnp_fast_partial",
    "DHG.Props.C133_graph_same_partial",
    "DHG.Props.C133_fast_ends_false",
    "DHG.Props.C133_draws_exist"
   ],
   "note": "C133_graph_Gnp_fast_partial: Missing: the probabilities zero and one, where it raises (`C133_fast_ends_false`). | C133_digraph_Gnp_fast_partial: Missing: the probabilities zero and one, where it raises (`C133_fast_ends_false`). | C133_fast_ends_false: C133 fails for the fast generators at the ends: with probability zero the graph without edges should come out always, with probability one the complete graph; neither ever does."
  },
  {
   "property": "C134",
   "status": "partial",
   "theorems": [
    "DHG.Props.C134_graph_Gnm_partial",
    "DHG.Props.C134_digraph_Gnm_partial",
    "DHG.Props.C134_bigraph_Gnm",
    "DHG.Props.C134_uniform_hypergraph_Gnm",
    "DHG.Props.C134_draws_exist"
   ],
   "note": "C134_graph_Gnm_partial: Missing: the complete graph, which is refused (`C71_graph_Gnm_complete_false`). | C134_digraph_Gnm_partial: Missing: the complete directed graph, which is refused (`C71_digraph_Gnm_complete_false`)."
  },
  {
   "property": "C135",
   "status": "proved",
   "theorems": [
    "DHG.Props.C135_split_by_num",
    "DHG.Props.C135_split_by_num_possible",
    "DHG.Props.C135_split_by_num_uniform",
    "DHG.Props.C135_split_by_ratio",
    "DHG.Props.C135_split_by_ratio_possible",
    "DHG.Props.C135_split_by_ratio_uniform",
    "DHG.Props.C135_draws_exist"
   ],
   "note": ""
  },
  {
   "property": "C136",
   "status": "proved",
   "theorems": [
    "DHG.Props.C136_split_by_num_UI",
    "DHG.Props.C136_split_by_ratio_UI",
    "DHG.Props.C136_draws_exist"
   ],
   "note": ""
  },
  {
   "property": "C137",
   "status": "proved",
   "theorems": [
    "DHG.Props.C137_negative_item",
    "DHG.Props.C137_triplet",
    "DHG.Props.C137_draws_exist"
   ],
   "note": ""
  },
  {
   "property": "C138",
   "status": "proved",
   "theorems": [
    "DHG.Props.C138_graph_smoothing_layers",
    "DHG.Props.C138_bigraph_smoothing_layers",
    "DHG.Props.C138_hypergraph_smoothing_layers",
    "DHG.Props.C138_graph_drop_edges",
    "DHG.Props.C138_digraph_drop_edges",
    "DHG.Props.C138_bigraph_drop_edges",
    "DHG.Props.C138_hypergraph_drop",
    "DHG.Props.C138_hypergraph_drop_group",
    "DHG.Props.C138_graph_v2v_dropout",
    "DHG.Props.C138_graph_smoothing_dropout",
    "DHG.Props.C138_digraph_v2v_dropout",
    "DHG.Props.C138_bigraph_u2v_dropout",
    "DHG.Props.C138_bigraph_v2u_dropout",
    "DHG.Props.C138_bigraph_smoothing_dropout",
    "DHG.Props.C138_hypergraph_aggr_dropout",
    "DHG.Props.C138_hypergraph_dropout",
    "DHG.Props.C138_hypergraph_smoothing_dropout",
    "DHG.Props.C138_sparse_dropout",
    "DHG.Props.C138_graph_mean_variance",
    "DHG.Props.C138_graph_sum_rows",
    "DHG.Props.C138_graph_smoothing_rows",
    "DHG.Props.C138_digraph_sum_rows",
    "DHG.Props.C138_bigraph_u2v_rows",
    "DHG.Props.C138_bigraph_v2u_rows",
    "DHG.Props.C138_bigraph_smoothing_rows",
    "DHG.Props.C138_hypergraph_smoothing_rows",
    "DHG.Props.C138_graph_sum_variance",
    "DHG.Props.C138_graph_smoothing_variance",
    "DHG.Props.C138_hypergraph_smoothing_variance",
    "DHG.Props.C138_digraph_dst2src_variance",
    "DHG.Props.C138_digraph_src2dst_variance",
    "DHG.Props.C138_bigraph_v2u_variance",
    "DHG.Props.C138_bigraph_u2v_variance",
    "DHG.Props.C138_bigraph_smoothing_variance",
    "DHG.Props.C138_hypergraph_v2v_dropout"
   ],
   "note": ""
  },
  {
   "property": "C139",
   "status": "proved",
   "theorems": [
    "DHG.Props.C139_graph_shift",
    "DHG.Props.C139_graph_raise",
    "DHG.Props.C139_graph_equal",
    "DHG.Props.C139_digraph_shift",
    "DHG.Props.C139_digraph_raise",
    "DHG.Props.C139_digraph_equal",
    "DHG.Props.C139_bigraph_shift",
    "DHG.Props.C139_bigraph_raise",
    "DHG.Props.C139_bigraph_equal",
    "DHG.Props.C139_hypergraph_shift",
    "DHG.Props.C139_hypergraph_raise",
    "DHG.Props.C139_hypergraph_equal",
    "DHG.Props.C139_digraph_equal_default",
    "DHG.Props.C139_bigraph_equal_default",
    "DHG.Props.C139_hypergraph_default"
   ],
   "note": ""
  },
  {
   "property": "C140",
   "status": "proved",
   "theorems": [
    "DHG.Props.C140_lightgcn_training"
   ],
   "note": ""
  }
 ]
}
