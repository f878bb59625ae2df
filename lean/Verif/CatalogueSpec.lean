import Verif.Catalogue

/-!
# What the documentation of the dataset classes promises

Transcribed from the docstrings of the classes in `dhg/data/*.py`: for each class the items in the order of the
documentation, with the number or the type given there.
-/

set_option linter.unusedSectionVars false
set_option autoImplicit false

namespace DHG
namespace Spec
open Data

/-- the documentation of an item: a number, a tensor of some type, or an object (a list, a dictionary) -/
inductive Doc
  | number (n : Nat)
  | tensor (k : Kind)
  | obj
  deriving DecidableEq

/-- the classes and their documented items -/
def documented : List (String × List (String × Doc)) := [
  ("AmazonBook", [("num_users", .number 52643), ("num_items", .number 91599), ("num_interactions", .number 2984108),
    ("train_adj_list", .obj), ("test_adj_list", .obj)]),
  ("BlogCatalog", [("num_classes", .number 6), ("num_vertices", .number 5196), ("num_edges", .number 343486),
    ("dim_features", .number 8189), ("features", .tensor .float), ("edge_list", .obj),
    ("labels", .tensor .long)]),
  ("Citeseer", [("num_classes", .number 6), ("num_vertices", .number 3327), ("num_edges", .number 9464),
    ("dim_features", .number 3703), ("features", .tensor .float), ("edge_list", .obj),
    ("labels", .tensor .long), ("train_mask", .tensor .bool), ("val_mask", .tensor .bool),
    ("test_mask", .tensor .bool)]),
  ("CiteseerBiGraph", [("num_u_classes", .number 6), ("num_u_vertices", .number 1237), ("num_v_vertices", .number 742),
    ("num_edges", .number 1665), ("dim_u_features", .number 3703), ("dim_v_features", .number 3703),
    ("u_features", .tensor .float), ("v_features", .tensor .float), ("edge_list", .obj),
    ("u_labels", .tensor .long)]),
  ("CoauthorshipCora", [("num_classes", .number 7), ("num_vertices", .number 2708), ("num_edges", .number 1072),
    ("dim_features", .number 1433), ("features", .tensor .float), ("edge_list", .obj),
    ("labels", .tensor .long), ("train_mask", .tensor .bool), ("val_mask", .tensor .bool),
    ("test_mask", .tensor .bool)]),
  ("CoauthorshipDBLP", [("num_classes", .number 6), ("num_vertices", .number 41302), ("num_edges", .number 22363),
    ("dim_features", .number 1425), ("features", .tensor .float), ("edge_list", .obj),
    ("labels", .tensor .long), ("train_mask", .tensor .bool), ("val_mask", .tensor .bool),
    ("test_mask", .tensor .bool)]),
  ("CocitationCora", [("num_classes", .number 7), ("num_vertices", .number 2708), ("num_edges", .number 1579),
    ("dim_features", .number 1433), ("features", .tensor .float), ("edge_list", .obj),
    ("labels", .tensor .long), ("train_mask", .tensor .bool), ("val_mask", .tensor .bool),
    ("test_mask", .tensor .bool)]),
  ("CocitationCiteseer", [("num_classes", .number 6), ("num_vertices", .number 3327), ("num_edges", .number 1079),
    ("dim_features", .number 3703), ("features", .tensor .float), ("edge_list", .obj),
    ("labels", .tensor .long), ("train_mask", .tensor .bool), ("val_mask", .tensor .bool),
    ("test_mask", .tensor .bool)]),
  ("CocitationPubmed", [("num_classes", .number 3), ("num_vertices", .number 19717), ("num_edges", .number 7963),
    ("dim_features", .number 500), ("features", .tensor .float), ("edge_list", .obj), ("labels", .tensor .long),
    ("train_mask", .tensor .bool), ("val_mask", .tensor .bool), ("test_mask", .tensor .bool)]),
  ("Cooking200", [("num_classes", .number 20), ("num_vertices", .number 7403), ("num_edges", .number 2755),
    ("edge_list", .obj), ("labels", .tensor .long), ("train_mask", .tensor .bool), ("val_mask", .tensor .bool),
    ("test_mask", .tensor .bool)]),
  ("Cora", [("num_classes", .number 7), ("num_vertices", .number 2708), ("num_edges", .number 10858),
    ("dim_features", .number 1433), ("features", .tensor .float), ("edge_list", .obj),
    ("labels", .tensor .long), ("train_mask", .tensor .bool), ("val_mask", .tensor .bool),
    ("test_mask", .tensor .bool)]),
  ("CoraBiGraph", [("num_u_classes", .number 7), ("num_u_vertices", .number 1312), ("num_v_vertices", .number 789),
    ("num_edges", .number 2314), ("dim_u_features", .number 1433), ("dim_v_features", .number 1433),
    ("u_features", .tensor .float), ("v_features", .tensor .float), ("edge_list", .obj),
    ("u_labels", .tensor .long)]),
  ("DBLP8k", [("num_vertices", .number 8657), ("num_edges", .number 2603), ("edge_list", .obj)]),
  ("DBLP4k", [("num_classes", .number 4), ("num_vertices", .number 4057), ("num_paper_edges", .number 14328),
    ("num_term_edges", .number 7723), ("num_conf_edges", .number 20), ("dim_features", .number 334),
    ("features", .tensor .float), ("labels", .tensor .long), ("edge_by_paper", .obj), ("edge_by_term", .obj),
    ("edge_by_conf", .obj), ("paper_author_dict", .obj), ("term_paper_dict", .obj), ("conf_paper_dict", .obj)]),
  ("Facebook", [("num_classes", .number 4), ("num_vertices", .number 22470), ("num_edges", .number 85501),
    ("dim_features", .number 4714), ("features", .tensor .float), ("edge_list", .obj),
    ("labels", .tensor .long)]),
  ("Flickr", [("num_classes", .number 9), ("num_vertices", .number 7575), ("num_edges", .number 479476),
    ("dim_features", .number 12047), ("features", .tensor .float), ("edge_list", .obj),
    ("labels", .tensor .long)]),
  ("Github", [("num_classes", .number 4), ("num_vertices", .number 37700), ("num_edges", .number 144501),
    ("dim_features", .number 4005), ("features", .tensor .float), ("edge_list", .obj),
    ("labels", .tensor .long)]),
  ("Gowalla", [("num_users", .number 29858), ("num_items", .number 40981), ("num_interactions", .number 1027370),
    ("train_adj_list", .obj), ("test_adj_list", .obj)]),
  ("IMDB4k", [("num_classes", .number 3), ("num_vertices", .number 4278), ("num_director_edges", .number 2081),
    ("num_actor_edges", .number 5257), ("dim_features", .number 3066), ("features", .tensor .float),
    ("labels", .tensor .long), ("edge_by_director", .obj), ("edge_by_actor", .obj)]),
  ("MovieLens1M", [("num_users", .number 6022), ("num_items", .number 3043), ("num_interactions", .number 995154),
    ("train_adj_list", .obj), ("test_adj_list", .obj)]),
  ("News20", [("num_classes", .number 4), ("num_vertices", .number 16342), ("num_edges", .number 100),
    ("dim_features", .number 1433), ("features", .tensor .float), ("edge_list", .obj),
    ("labels", .tensor .long)]),
  ("Pubmed", [("num_classes", .number 3), ("num_vertices", .number 19717), ("num_edges", .number 88676),
    ("dim_features", .number 500), ("features", .tensor .float), ("edge_list", .obj), ("labels", .tensor .long),
    ("train_mask", .tensor .bool), ("val_mask", .tensor .bool), ("test_mask", .tensor .bool)]),
  ("PubmedBiGraph", [("num_u_classes", .number 3), ("num_u_vertices", .number 13424), ("num_v_vertices", .number 3435),
    ("num_edges", .number 18782), ("dim_u_features", .number 400), ("dim_v_features", .number 500),
    ("u_features", .tensor .float), ("v_features", .tensor .float), ("edge_list", .obj),
    ("u_labels", .tensor .long)]),
  ("Recipe100k", [("num_classes", .number 8), ("num_vertices", .number 101585), ("num_edges", .number 12387),
    ("dim_features", .number 2254), ("features", .tensor .float), ("edge_list", .obj),
    ("labels", .tensor .long)]),
  ("Recipe200k", [("num_classes", .number 8), ("num_vertices", .number 240094), ("num_edges", .number 18129),
    ("dim_features", .number 3200), ("features", .tensor .float), ("edge_list", .obj),
    ("labels", .tensor .long)]),
  ("TencentBiGraph", [("num_u_classes", .number 2), ("num_u_vertices", .number 619030), ("num_v_vertices", .number 90044),
    ("num_edges", .number 144501), ("dim_u_features", .number 8), ("dim_v_features", .number 16),
    ("u_features", .tensor .float), ("v_features", .tensor .float), ("edge_list", .obj),
    ("u_labels", .tensor .long)]),
  ("Tencent2k", [("num_classes", .number 2), ("num_vertices", .number 2146), ("num_edges", .number 6378),
    ("dim_features", .number 8), ("features", .tensor .float), ("edge_list", .obj), ("labels", .tensor .long),
    ("train_mask", .tensor .bool), ("val_mask", .tensor .bool), ("test_mask", .tensor .bool)]),
  ("WalmartTrips", [("num_classes", .number 12), ("num_vertices", .number 88860), ("num_edges", .number 69906),
    ("edge_list", .obj), ("labels", .tensor .long)]),
  ("HouseCommittees", [("num_classes", .number 3), ("num_vertices", .number 1290), ("num_edges", .number 341), ("edge_list", .obj),
    ("labels", .tensor .long)]),
  ("Yelp2018", [("num_users", .number 31668), ("num_items", .number 38048), ("num_interactions", .number 1561406),
    ("train_adj_list", .obj), ("test_adj_list", .obj)]),
  ("YelpRestaurant", [("num_classes", .number 11), ("num_vertices", .number 50758), ("num_edges", .number 679302),
    ("dim_features", .number 1862), ("features", .tensor .float), ("edge_list", .obj),
    ("labels", .tensor .long), ("state", .tensor .long), ("city", .tensor .long)]),
  ("Yelp3k", [("num_classes", .number 6), ("num_vertices", .number 3855), ("num_edges", .number 24137),
    ("dim_features", .number 1862), ("features", .tensor .float), ("edge_list", .obj),
    ("labels", .tensor .long)])]

end Spec
end DHG
