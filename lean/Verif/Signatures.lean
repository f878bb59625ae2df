import Verif.Py

/-!
# Signatures and documented parameters

The parameters of the functions, methods and constructors of the public interface (names without leading underscore) whose
docstring has an `Args:` section, next to what that section says.  `self` and `cls` are left out.  Default values are
given as Python texts; a documented default that is not a literal (e.g. "the main hyperedge group") is `none`.  A documented
parameter counts as optional when its docstring says `optional` or gives a default.  Functions with `*args` or
`**kwargs` are not in the table: `compose_pipes`, `load_from_pickle`, `load_from_json`, `MultiHeadWrapper`,
`EmbeddingRegularization.forward`, `remap_edge_lists` and `remap_adj_lists`.
-/

set_option linter.unusedSectionVars false
set_option autoImplicit false

namespace DHG
namespace Sig

/-- a parameter of a function and the text of its default value (e.g. structure/hypergraphs/hypergraph.py:395) -/
structure Param where
  name : String
  default : Option String
  deriving DecidableEq

/-- a parameter in a docstring, whether it is optional, and the default if one is given
(e.g. structure/hypergraphs/hypergraph.py:398-404) -/
structure DocParam where
  name : String
  optional : Bool
  default : Option String
  deriving DecidableEq

/-- a function: file, line, name, parameters, documented parameters (e.g. structure/hypergraphs/hypergraph.py:395-405) -/
structure Fn where
  file : String
  line : Nat
  name : String
  params : List Param
  doc : List DocParam
  deriving DecidableEq

/-- the value of a parameter: an argument of the call, or the default (every call in /repo, e.g. experiments/graphs/graph.py:37-46) -/
inductive Arg (V : Type)
  | given (v : V)
  | default (text : String)
  deriving DecidableEq

variable {V : Type}

/-- Python gives the positional arguments to the first parameters, then looks up the others among the keywords, then
among the defaults; a parameter that gets two values or none is a `TypeError`, as are too many positional
arguments (every call, e.g. experiments/graphs/graph.py:37-46) -/
def fill : List Param → List V → List (String × V) → Except Err (List (String × Arg V))
  | [], [], _ => .ok []
  | [], _ :: _, _ => .error .type
  | p :: ps, v :: pos, kw =>
    match kw.lookup p.name with
    | some _ => .error .type
    | none => (fill ps pos kw).map ((p.name, .given v) :: ·)
  | p :: ps, [], kw =>
    match kw.lookup p.name with
    | some v => (fill ps [] kw).map ((p.name, .given v) :: ·)
    | none =>
      match p.default with
      | some t => (fill ps [] kw).map ((p.name, .default t) :: ·)
      | none => .error .type

/-- the values of the parameters in a call; a keyword that is no parameter is a `TypeError`
(every call, e.g. experiments/graphs/graph.py:37-46) -/
def bind (ps : List Param) (pos : List V) (kw : List (String × V)) : Except Err (List (String × Arg V)) :=
  if kw.all fun k => ps.any fun p => p.name == k.1 then fill ps pos kw else .error .type

/-- data/amazon.py:27 -/
def data_amazon : List Fn := [
  ⟨"data/amazon.py", 27, "AmazonBook",
    [⟨"data_root", some "None"⟩],
    [⟨"data_root", true, none⟩]⟩]

/-- data/base.py:53,102 -/
def data_base : List Fn := [
  ⟨"data/base.py", 53, "BaseData.needs_to_load",
    [⟨"item_name", none⟩],
    [⟨"item_name", false, none⟩]⟩,
  ⟨"data/base.py", 102, "BaseData.fetch_files",
    [⟨"files", none⟩],
    [⟨"files", false, none⟩]⟩]

/-- data/blogcatalog.py:32 -/
def data_blogcatalog : List Fn := [
  ⟨"data/blogcatalog.py", 32, "BlogCatalog",
    [⟨"data_root", some "None"⟩],
    [⟨"data_root", true, none⟩]⟩]

/-- data/citeseer.py:28,90 -/
def data_citeseer : List Fn := [
  ⟨"data/citeseer.py", 28, "Citeseer",
    [⟨"data_root", some "None"⟩],
    [⟨"data_root", true, none⟩]⟩,
  ⟨"data/citeseer.py", 90, "CiteseerBiGraph",
    [⟨"data_root", some "None"⟩],
    [⟨"data_root", true, none⟩]⟩]

/-- data/coauthorship.py:29,88 -/
def data_coauthorship : List Fn := [
  ⟨"data/coauthorship.py", 29, "CoauthorshipCora",
    [⟨"data_root", some "None"⟩],
    [⟨"data_root", true, none⟩]⟩,
  ⟨"data/coauthorship.py", 88, "CoauthorshipDBLP",
    [⟨"data_root", some "None"⟩],
    [⟨"data_root", true, none⟩]⟩]

/-- data/cocitation.py:30,90,150 -/
def data_cocitation : List Fn := [
  ⟨"data/cocitation.py", 30, "CocitationCora",
    [⟨"data_root", some "None"⟩],
    [⟨"data_root", true, none⟩]⟩,
  ⟨"data/cocitation.py", 90, "CocitationCiteseer",
    [⟨"data_root", some "None"⟩],
    [⟨"data_root", true, none⟩]⟩,
  ⟨"data/cocitation.py", 150, "CocitationPubmed",
    [⟨"data_root", some "None"⟩],
    [⟨"data_root", true, none⟩]⟩]

/-- data/cooking_200.py:32 -/
def data_cooking_200 : List Fn := [
  ⟨"data/cooking_200.py", 32, "Cooking200",
    [⟨"data_root", some "None"⟩],
    [⟨"data_root", true, none⟩]⟩]

/-- data/cora.py:30,92 -/
def data_cora : List Fn := [
  ⟨"data/cora.py", 30, "Cora",
    [⟨"data_root", some "None"⟩],
    [⟨"data_root", true, none⟩]⟩,
  ⟨"data/cora.py", 92, "CoraBiGraph",
    [⟨"data_root", some "None"⟩],
    [⟨"data_root", true, none⟩]⟩]

/-- data/dblp.py:22,63 -/
def data_dblp : List Fn := [
  ⟨"data/dblp.py", 22, "DBLP8k",
    [⟨"data_root", some "None"⟩],
    [⟨"data_root", true, none⟩]⟩,
  ⟨"data/dblp.py", 63, "DBLP4k",
    [⟨"data_root", some "None"⟩],
    [⟨"data_root", true, none⟩]⟩]

/-- data/facebook.py:32 -/
def data_facebook : List Fn := [
  ⟨"data/facebook.py", 32, "Facebook",
    [⟨"data_root", some "None"⟩],
    [⟨"data_root", true, none⟩]⟩]

/-- data/flickr.py:31 -/
def data_flickr : List Fn := [
  ⟨"data/flickr.py", 31, "Flickr",
    [⟨"data_root", some "None"⟩],
    [⟨"data_root", true, none⟩]⟩]

/-- data/github.py:33 -/
def data_github : List Fn := [
  ⟨"data/github.py", 33, "Github",
    [⟨"data_root", some "None"⟩],
    [⟨"data_root", true, none⟩]⟩]

/-- data/gowalla.py:27 -/
def data_gowalla : List Fn := [
  ⟨"data/gowalla.py", 27, "Gowalla",
    [⟨"data_root", some "None"⟩],
    [⟨"data_root", true, none⟩]⟩]

/-- data/imdb.py:34 -/
def data_imdb : List Fn := [
  ⟨"data/imdb.py", 34, "IMDB4k",
    [⟨"data_root", some "None"⟩],
    [⟨"data_root", true, none⟩]⟩]

/-- data/movielens.py:27 -/
def data_movielens : List Fn := [
  ⟨"data/movielens.py", 27, "MovieLens1M",
    [⟨"data_root", some "None"⟩],
    [⟨"data_root", true, none⟩]⟩]

/-- data/news.py:28 -/
def data_news : List Fn := [
  ⟨"data/news.py", 28, "News20",
    [⟨"data_root", some "None"⟩],
    [⟨"data_root", true, none⟩]⟩]

/-- data/pubmed.py:28,90 -/
def data_pubmed : List Fn := [
  ⟨"data/pubmed.py", 28, "Pubmed",
    [⟨"data_root", some "None"⟩],
    [⟨"data_root", true, none⟩]⟩,
  ⟨"data/pubmed.py", 90, "PubmedBiGraph",
    [⟨"data_root", some "None"⟩],
    [⟨"data_root", true, none⟩]⟩]

/-- data/recipe.py:29,73 -/
def data_recipe : List Fn := [
  ⟨"data/recipe.py", 29, "Recipe100k",
    [⟨"data_root", some "None"⟩],
    [⟨"data_root", true, none⟩]⟩,
  ⟨"data/recipe.py", 73, "Recipe200k",
    [⟨"data_root", some "None"⟩],
    [⟨"data_root", true, none⟩]⟩]

/-- data/tencent.py:37,91 -/
def data_tencent : List Fn := [
  ⟨"data/tencent.py", 37, "TencentBiGraph",
    [⟨"data_root", some "None"⟩],
    [⟨"data_root", true, none⟩]⟩,
  ⟨"data/tencent.py", 91, "Tencent2k",
    [⟨"data_root", some "None"⟩],
    [⟨"data_root", true, none⟩]⟩]

/-- data/walmart.py:27 -/
def data_walmart : List Fn := [
  ⟨"data/walmart.py", 27, "WalmartTrips",
    [⟨"data_root", some "None"⟩],
    [⟨"data_root", true, none⟩]⟩]

/-- data/white_house.py:27 -/
def data_white_house : List Fn := [
  ⟨"data/white_house.py", 27, "HouseCommittees",
    [⟨"data_root", some "None"⟩],
    [⟨"data_root", true, none⟩]⟩]

/-- data/yelp.py:27,70,125 -/
def data_yelp : List Fn := [
  ⟨"data/yelp.py", 27, "Yelp2018",
    [⟨"data_root", some "None"⟩],
    [⟨"data_root", true, none⟩]⟩,
  ⟨"data/yelp.py", 70, "YelpRestaurant",
    [⟨"data_root", some "None"⟩],
    [⟨"data_root", true, none⟩]⟩,
  ⟨"data/yelp.py", 125, "Yelp3k",
    [⟨"data_root", some "None"⟩],
    [⟨"data_root", true, none⟩]⟩]

/-- datapipe/common.py:7,40,65 -/
def datapipe_common : List Fn := [
  ⟨"datapipe/common.py", 7, "to_tensor",
    [⟨"X", none⟩],
    [⟨"X", false, none⟩]⟩,
  ⟨"datapipe/common.py", 40, "to_bool_tensor",
    [⟨"X", none⟩],
    [⟨"X", false, none⟩]⟩,
  ⟨"datapipe/common.py", 65, "to_long_tensor",
    [⟨"X", none⟩],
    [⟨"X", false, none⟩]⟩]

/-- datapipe/loader.py:39,64 -/
def datapipe_loader : List Fn := [
  ⟨"datapipe/loader.py", 39, "load_from_txt",
    [⟨"file_path", none⟩, ⟨"dtype", none⟩, ⟨"sep", some "\",| |	\""⟩, ⟨"ignore_header", some "0"⟩],
    [⟨"file_path", false, none⟩, ⟨"dtype", false, none⟩, ⟨"sep", true, some "\",| |	\""⟩, ⟨"ignore_header", true, some "0"⟩]⟩,
  ⟨"datapipe/loader.py", 64, "ret_cast_fun",
    [⟨"dtype", none⟩],
    [⟨"dtype", false, none⟩]⟩]

/-- datapipe/normalize.py:5,42 -/
def datapipe_normalize : List Fn := [
  ⟨"datapipe/normalize.py", 5, "norm_ft",
    [⟨"X", none⟩, ⟨"ord", some "None"⟩],
    [⟨"X", false, none⟩, ⟨"ord", true, some "None"⟩]⟩,
  ⟨"datapipe/normalize.py", 42, "min_max_scaler",
    [⟨"X", none⟩, ⟨"ft_min", none⟩, ⟨"ft_max", none⟩],
    [⟨"X", false, none⟩, ⟨"ft_min", false, none⟩, ⟨"ft_max", false, none⟩]⟩]

/-- experiments/base.py:35,80,126,159,173,185 -/
def experiments_base : List Fn := [
  ⟨"experiments/base.py", 35, "BaseTask",
    [⟨"work_root", none⟩, ⟨"data", none⟩, ⟨"model_builder", none⟩, ⟨"train_builder", none⟩, ⟨"evaluator", none⟩, ⟨"device", none⟩, ⟨"structure_builder", some "None"⟩, ⟨"study_name", some "None"⟩, ⟨"overwrite", some "True"⟩],
    [⟨"work_root", false, none⟩, ⟨"data", false, none⟩, ⟨"model_builder", false, none⟩, ⟨"train_builder", false, none⟩, ⟨"evaluator", false, none⟩, ⟨"device", false, none⟩, ⟨"structure_builder", false, none⟩, ⟨"study_name", true, some "None"⟩, ⟨"overwrite", true, some "True"⟩]⟩,
  ⟨"experiments/base.py", 80, "BaseTask.experiment",
    [⟨"trial", none⟩],
    [⟨"trial", false, none⟩]⟩,
  ⟨"experiments/base.py", 126, "BaseTask.run",
    [⟨"max_epoch", none⟩, ⟨"num_trials", some "1"⟩, ⟨"direction", some "\"maximize\""⟩],
    [⟨"max_epoch", false, none⟩, ⟨"num_trials", true, some "1"⟩, ⟨"direction", true, some "\"maximize\""⟩]⟩,
  ⟨"experiments/base.py", 159, "BaseTask.train",
    [⟨"data", none⟩, ⟨"model", none⟩, ⟨"optimizer", none⟩, ⟨"criterion", none⟩],
    [⟨"data", false, none⟩, ⟨"model", false, none⟩, ⟨"optimizer", false, none⟩, ⟨"criterion", false, none⟩]⟩,
  ⟨"experiments/base.py", 173, "BaseTask.validate",
    [⟨"data", none⟩, ⟨"model", none⟩],
    [⟨"data", false, none⟩, ⟨"model", false, none⟩]⟩,
  ⟨"experiments/base.py", 185, "BaseTask.test",
    [⟨"data", some "None"⟩, ⟨"model", some "None"⟩],
    [⟨"data", true, some "None"⟩, ⟨"model", true, some "None"⟩]⟩]

/-- experiments/graphs/graph.py:26,48,62,70,80,98,108 -/
def experiments_graphs_graph : List Fn := [
  ⟨"experiments/graphs/graph.py", 26, "GraphVertexClassificationTask",
    [⟨"work_root", none⟩, ⟨"data", none⟩, ⟨"model_builder", none⟩, ⟨"train_builder", none⟩, ⟨"evaluator", none⟩, ⟨"device", none⟩, ⟨"study_name", some "None"⟩, ⟨"overwrite", some "True"⟩],
    [⟨"work_root", false, none⟩, ⟨"data", false, none⟩, ⟨"model_builder", false, none⟩, ⟨"train_builder", false, none⟩, ⟨"evaluator", false, none⟩, ⟨"device", false, none⟩, ⟨"structure_builder", false, none⟩, ⟨"study_name", true, some "None"⟩, ⟨"overwrite", true, some "True"⟩]⟩,
  ⟨"experiments/graphs/graph.py", 48, "GraphVertexClassificationTask.to",
    [⟨"device", none⟩],
    [⟨"device", false, none⟩]⟩,
  ⟨"experiments/graphs/graph.py", 62, "GraphVertexClassificationTask.experiment",
    [⟨"trial", none⟩],
    [⟨"trial", false, none⟩]⟩,
  ⟨"experiments/graphs/graph.py", 70, "GraphVertexClassificationTask.run",
    [⟨"max_epoch", none⟩, ⟨"num_trials", some "1"⟩, ⟨"direction", some "\"maximize\""⟩],
    [⟨"max_epoch", false, none⟩, ⟨"num_trials", true, some "1"⟩, ⟨"direction", true, some "\"maximize\""⟩]⟩,
  ⟨"experiments/graphs/graph.py", 80, "GraphVertexClassificationTask.train",
    [⟨"data", none⟩, ⟨"model", none⟩, ⟨"optimizer", none⟩, ⟨"criterion", none⟩],
    [⟨"data", false, none⟩, ⟨"model", false, none⟩, ⟨"optimizer", false, none⟩, ⟨"criterion", false, none⟩]⟩,
  ⟨"experiments/graphs/graph.py", 98, "GraphVertexClassificationTask.validate",
    [⟨"data", none⟩, ⟨"model", none⟩],
    [⟨"data", false, none⟩, ⟨"model", false, none⟩]⟩,
  ⟨"experiments/graphs/graph.py", 108, "GraphVertexClassificationTask.test",
    [⟨"data", some "None"⟩, ⟨"model", some "None"⟩],
    [⟨"data", true, some "None"⟩, ⟨"model", true, some "None"⟩]⟩]

/-- experiments/hypergraphs/hypergraph.py:27,51,65,73,83,101,111 -/
def experiments_hypergraphs_hypergraph : List Fn := [
  ⟨"experiments/hypergraphs/hypergraph.py", 27, "HypergraphVertexClassificationTask",
    [⟨"work_root", none⟩, ⟨"data", none⟩, ⟨"model_builder", none⟩, ⟨"train_builder", none⟩, ⟨"evaluator", none⟩, ⟨"device", none⟩, ⟨"structure_builder", some "None"⟩, ⟨"study_name", some "None"⟩, ⟨"overwrite", some "True"⟩],
    [⟨"work_root", false, none⟩, ⟨"data", false, none⟩, ⟨"model_builder", false, none⟩, ⟨"train_builder", false, none⟩, ⟨"evaluator", false, none⟩, ⟨"device", false, none⟩, ⟨"structure_builder", false, none⟩, ⟨"study_name", true, some "None"⟩, ⟨"overwrite", true, some "True"⟩]⟩,
  ⟨"experiments/hypergraphs/hypergraph.py", 51, "HypergraphVertexClassificationTask.to",
    [⟨"device", none⟩],
    [⟨"device", false, none⟩]⟩,
  ⟨"experiments/hypergraphs/hypergraph.py", 65, "HypergraphVertexClassificationTask.experiment",
    [⟨"trial", none⟩],
    [⟨"trial", false, none⟩]⟩,
  ⟨"experiments/hypergraphs/hypergraph.py", 73, "HypergraphVertexClassificationTask.run",
    [⟨"max_epoch", none⟩, ⟨"num_trials", some "1"⟩, ⟨"direction", some "\"maximize\""⟩],
    [⟨"max_epoch", false, none⟩, ⟨"num_trials", true, some "1"⟩, ⟨"direction", true, some "\"maximize\""⟩]⟩,
  ⟨"experiments/hypergraphs/hypergraph.py", 83, "HypergraphVertexClassificationTask.train",
    [⟨"data", none⟩, ⟨"model", none⟩, ⟨"optimizer", none⟩, ⟨"criterion", none⟩],
    [⟨"data", false, none⟩, ⟨"model", false, none⟩, ⟨"optimizer", false, none⟩, ⟨"criterion", false, none⟩]⟩,
  ⟨"experiments/hypergraphs/hypergraph.py", 101, "HypergraphVertexClassificationTask.validate",
    [⟨"data", none⟩, ⟨"model", none⟩],
    [⟨"data", false, none⟩, ⟨"model", false, none⟩]⟩,
  ⟨"experiments/hypergraphs/hypergraph.py", 111, "HypergraphVertexClassificationTask.test",
    [⟨"data", some "None"⟩, ⟨"model", some "None"⟩],
    [⟨"data", true, some "None"⟩, ⟨"model", true, some "None"⟩]⟩]

/-- experiments/recommender.py:27,52,70,78,88,120,145 -/
def experiments_recommender : List Fn := [
  ⟨"experiments/recommender.py", 27, "UserItemRecommenderTask",
    [⟨"work_root", none⟩, ⟨"data", none⟩, ⟨"model_builder", none⟩, ⟨"train_builder", none⟩, ⟨"evaluator", none⟩, ⟨"device", none⟩, ⟨"structure_builder", some "None"⟩, ⟨"study_name", some "None"⟩, ⟨"overwrite", some "True"⟩],
    [⟨"work_root", false, none⟩, ⟨"data", false, none⟩, ⟨"model_builder", false, none⟩, ⟨"train_builder", false, none⟩, ⟨"evaluator", false, none⟩, ⟨"device", false, none⟩, ⟨"structure_builder", false, none⟩, ⟨"study_name", true, some "None"⟩, ⟨"overwrite", true, some "True"⟩]⟩,
  ⟨"experiments/recommender.py", 52, "UserItemRecommenderTask.to",
    [⟨"device", none⟩],
    [⟨"device", false, none⟩]⟩,
  ⟨"experiments/recommender.py", 70, "UserItemRecommenderTask.experiment",
    [⟨"trial", none⟩],
    [⟨"trial", false, none⟩]⟩,
  ⟨"experiments/recommender.py", 78, "UserItemRecommenderTask.run",
    [⟨"max_epoch", none⟩, ⟨"num_trials", some "1"⟩, ⟨"direction", some "\"maximize\""⟩],
    [⟨"max_epoch", false, none⟩, ⟨"num_trials", true, some "1"⟩, ⟨"direction", true, some "\"maximize\""⟩]⟩,
  ⟨"experiments/recommender.py", 88, "UserItemRecommenderTask.train",
    [⟨"data", none⟩, ⟨"model", none⟩, ⟨"optimizer", none⟩, ⟨"criterion", none⟩],
    [⟨"data", false, none⟩, ⟨"model", false, none⟩, ⟨"optimizer", false, none⟩, ⟨"criterion", false, none⟩]⟩,
  ⟨"experiments/recommender.py", 120, "UserItemRecommenderTask.validate",
    [⟨"data", none⟩, ⟨"model", none⟩],
    [⟨"data", false, none⟩, ⟨"model", false, none⟩]⟩,
  ⟨"experiments/recommender.py", 145, "UserItemRecommenderTask.test",
    [⟨"data", some "None"⟩, ⟨"model", some "None"⟩],
    [⟨"data", true, some "None"⟩, ⟨"model", true, some "None"⟩]⟩]

/-- experiments/vertex_classification.py:27,52,77,85,95,120,135 -/
def experiments_vertex_classification : List Fn := [
  ⟨"experiments/vertex_classification.py", 27, "VertexClassificationTask",
    [⟨"work_root", none⟩, ⟨"data", none⟩, ⟨"model_builder", none⟩, ⟨"train_builder", none⟩, ⟨"evaluator", none⟩, ⟨"device", none⟩, ⟨"structure_builder", some "None"⟩, ⟨"study_name", some "None"⟩, ⟨"overwrite", some "True"⟩],
    [⟨"work_root", false, none⟩, ⟨"data", false, none⟩, ⟨"model_builder", false, none⟩, ⟨"train_builder", false, none⟩, ⟨"evaluator", false, none⟩, ⟨"device", false, none⟩, ⟨"structure_builder", false, none⟩, ⟨"study_name", true, some "None"⟩, ⟨"overwrite", true, some "True"⟩]⟩,
  ⟨"experiments/vertex_classification.py", 52, "VertexClassificationTask.to",
    [⟨"device", none⟩],
    [⟨"device", false, none⟩]⟩,
  ⟨"experiments/vertex_classification.py", 77, "VertexClassificationTask.experiment",
    [⟨"trial", none⟩],
    [⟨"trial", false, none⟩]⟩,
  ⟨"experiments/vertex_classification.py", 85, "VertexClassificationTask.run",
    [⟨"max_epoch", none⟩, ⟨"num_trials", some "1"⟩, ⟨"direction", some "\"maximize\""⟩],
    [⟨"max_epoch", false, none⟩, ⟨"num_trials", true, some "1"⟩, ⟨"direction", true, some "\"maximize\""⟩]⟩,
  ⟨"experiments/vertex_classification.py", 95, "VertexClassificationTask.train",
    [⟨"data", none⟩, ⟨"model", none⟩, ⟨"optimizer", none⟩, ⟨"criterion", none⟩],
    [⟨"data", false, none⟩, ⟨"model", false, none⟩, ⟨"optimizer", false, none⟩, ⟨"criterion", false, none⟩]⟩,
  ⟨"experiments/vertex_classification.py", 120, "VertexClassificationTask.validate",
    [⟨"data", none⟩, ⟨"model", none⟩],
    [⟨"data", false, none⟩, ⟨"model", false, none⟩]⟩,
  ⟨"experiments/vertex_classification.py", 135, "VertexClassificationTask.test",
    [⟨"data", some "None"⟩, ⟨"model", some "None"⟩],
    [⟨"data", true, some "None"⟩, ⟨"model", true, some "None"⟩]⟩]

/-- metrics/__init__.py:15 -/
def metrics___init__ : List Fn := [
  ⟨"metrics/__init__.py", 15, "build_evaluator",
    [⟨"task", none⟩, ⟨"metric_configs", none⟩, ⟨"validate_index", some "0"⟩],
    [⟨"task", false, none⟩, ⟨"metric_configs", false, none⟩, ⟨"validate_index", true, some "0"⟩]⟩]

/-- metrics/base.py:12,81,103,127,167,176 -/
def metrics_base : List Fn := [
  ⟨"metrics/base.py", 12, "format_metric_configs",
    [⟨"task", none⟩, ⟨"metric_configs", none⟩],
    [⟨"task", false, none⟩, ⟨"metric_configs", false, none⟩]⟩,
  ⟨"metrics/base.py", 81, "BaseEvaluator",
    [⟨"task", none⟩, ⟨"metric_configs", none⟩, ⟨"validate_index", some "0"⟩],
    [⟨"task", false, none⟩, ⟨"metric_configs", false, none⟩, ⟨"validate_index", true, some "0"⟩]⟩,
  ⟨"metrics/base.py", 103, "BaseEvaluator.validate_add_batch",
    [⟨"batch_y_true", none⟩, ⟨"batch_y_pred", none⟩],
    [⟨"batch_y_true", false, none⟩, ⟨"batch_y_pred", false, none⟩]⟩,
  ⟨"metrics/base.py", 127, "BaseEvaluator.test_add_batch",
    [⟨"batch_y_true", none⟩, ⟨"batch_y_pred", none⟩],
    [⟨"batch_y_true", false, none⟩, ⟨"batch_y_pred", false, none⟩]⟩,
  ⟨"metrics/base.py", 167, "BaseEvaluator.validate",
    [⟨"y_true", none⟩, ⟨"y_pred", none⟩],
    [⟨"y_true", false, none⟩, ⟨"y_pred", false, none⟩]⟩,
  ⟨"metrics/base.py", 176, "BaseEvaluator.test",
    [⟨"y_true", none⟩, ⟨"y_pred", none⟩],
    [⟨"y_true", false, none⟩, ⟨"y_pred", false, none⟩]⟩]

/-- metrics/classification.py:42,71,100,136,143,152 -/
def metrics_classification : List Fn := [
  ⟨"metrics/classification.py", 42, "accuracy",
    [⟨"y_true", none⟩, ⟨"y_pred", none⟩],
    [⟨"y_true", false, none⟩, ⟨"y_pred", false, none⟩]⟩,
  ⟨"metrics/classification.py", 71, "f1_score",
    [⟨"y_true", none⟩, ⟨"y_pred", none⟩, ⟨"average", some "\"macro\""⟩],
    [⟨"y_true", false, none⟩, ⟨"y_pred", false, none⟩, ⟨"average", false, none⟩]⟩,
  ⟨"metrics/classification.py", 100, "confusion_matrix",
    [⟨"y_true", none⟩, ⟨"y_pred", none⟩],
    [⟨"y_true", false, none⟩, ⟨"y_pred", false, none⟩]⟩,
  ⟨"metrics/classification.py", 136, "VertexClassificationEvaluator",
    [⟨"metric_configs", none⟩, ⟨"validate_index", some "0"⟩],
    [⟨"metric_configs", false, none⟩, ⟨"validate_index", true, some "0"⟩]⟩,
  ⟨"metrics/classification.py", 143, "VertexClassificationEvaluator.validate",
    [⟨"y_true", none⟩, ⟨"y_pred", none⟩],
    [⟨"y_true", false, none⟩, ⟨"y_pred", false, none⟩]⟩,
  ⟨"metrics/classification.py", 152, "VertexClassificationEvaluator.test",
    [⟨"y_true", none⟩, ⟨"y_pred", none⟩],
    [⟨"y_true", false, none⟩, ⟨"y_pred", false, none⟩]⟩]

/-- metrics/graphs/graph.py:35 -/
def metrics_graphs_graph : List Fn := [
  ⟨"metrics/graphs/graph.py", 35, "GraphVertexClassificationEvaluator",
    [⟨"metric_configs", none⟩, ⟨"validate_index", some "0"⟩],
    [⟨"metric_configs", false, none⟩, ⟨"validate_index", true, some "0"⟩]⟩]

/-- metrics/hypergraphs/hypergraph.py:35 -/
def metrics_hypergraphs_hypergraph : List Fn := [
  ⟨"metrics/hypergraphs/hypergraph.py", 35, "HypergraphVertexClassificationEvaluator",
    [⟨"metric_configs", none⟩, ⟨"validate_index", some "0"⟩],
    [⟨"metric_configs", false, none⟩, ⟨"validate_index", true, some "0"⟩]⟩]

/-- metrics/recommender.py:53,87,138,257,264,280 -/
def metrics_recommender : List Fn := [
  ⟨"metrics/recommender.py", 53, "precision",
    [⟨"y_true", none⟩, ⟨"y_pred", none⟩, ⟨"k", some "None"⟩, ⟨"ratio", some "None"⟩, ⟨"ret_batch", some "False"⟩],
    [⟨"y_true", false, none⟩, ⟨"y_pred", false, none⟩, ⟨"k", true, none⟩, ⟨"ratio", true, some "None"⟩, ⟨"ret_batch", true, some "False"⟩]⟩,
  ⟨"metrics/recommender.py", 87, "recall",
    [⟨"y_true", none⟩, ⟨"y_pred", none⟩, ⟨"k", some "None"⟩, ⟨"ratio", some "None"⟩, ⟨"ret_batch", some "False"⟩],
    [⟨"y_true", false, none⟩, ⟨"y_pred", false, none⟩, ⟨"k", true, none⟩, ⟨"ratio", true, some "None"⟩, ⟨"ret_batch", true, some "False"⟩]⟩,
  ⟨"metrics/recommender.py", 138, "ndcg",
    [⟨"y_true", none⟩, ⟨"y_pred", none⟩, ⟨"k", some "None"⟩, ⟨"ratio", some "None"⟩, ⟨"ret_batch", some "False"⟩],
    [⟨"y_true", false, none⟩, ⟨"y_pred", false, none⟩, ⟨"k", true, none⟩, ⟨"ratio", true, some "None"⟩, ⟨"ret_batch", true, some "False"⟩]⟩,
  ⟨"metrics/recommender.py", 257, "UserItemRecommenderEvaluator",
    [⟨"metric_configs", none⟩, ⟨"validate_index", some "0"⟩],
    [⟨"metric_configs", false, none⟩, ⟨"validate_index", true, some "0"⟩]⟩,
  ⟨"metrics/recommender.py", 264, "UserItemRecommenderEvaluator.validate_add_batch",
    [⟨"batch_y_true", none⟩, ⟨"batch_y_pred", none⟩],
    [⟨"batch_y_true", false, none⟩, ⟨"batch_y_pred", false, none⟩]⟩,
  ⟨"metrics/recommender.py", 280, "UserItemRecommenderEvaluator.test_add_batch",
    [⟨"batch_y_true", none⟩, ⟨"batch_y_pred", none⟩],
    [⟨"batch_y_true", false, none⟩, ⟨"batch_y_pred", false, none⟩]⟩]

/-- metrics/retrieval.py:45,79,116,162,221,264,299,388,542,547,561 -/
def metrics_retrieval : List Fn := [
  ⟨"metrics/retrieval.py", 45, "precision",
    [⟨"y_true", none⟩, ⟨"y_pred", none⟩, ⟨"k", some "None"⟩, ⟨"ratio", some "None"⟩, ⟨"ret_batch", some "False"⟩],
    [⟨"y_true", false, none⟩, ⟨"y_pred", false, none⟩, ⟨"k", true, none⟩, ⟨"ratio", true, some "None"⟩, ⟨"ret_batch", true, some "False"⟩]⟩,
  ⟨"metrics/retrieval.py", 79, "recall",
    [⟨"y_true", none⟩, ⟨"y_pred", none⟩, ⟨"k", some "None"⟩, ⟨"ratio", some "None"⟩, ⟨"ret_batch", some "False"⟩],
    [⟨"y_true", false, none⟩, ⟨"y_pred", false, none⟩, ⟨"k", true, none⟩, ⟨"ratio", true, some "None"⟩, ⟨"ret_batch", true, some "False"⟩]⟩,
  ⟨"metrics/retrieval.py", 116, "ap",
    [⟨"y_true", none⟩, ⟨"y_pred", none⟩, ⟨"k", some "None"⟩, ⟨"ratio", some "None"⟩, ⟨"method", some "\"pascal_voc\""⟩],
    [⟨"y_true", false, none⟩, ⟨"y_pred", false, none⟩, ⟨"k", true, none⟩, ⟨"ratio", true, some "None"⟩, ⟨"method", true, some "\"pascal_voc\""⟩]⟩,
  ⟨"metrics/retrieval.py", 162, "map",
    [⟨"y_true", none⟩, ⟨"y_pred", none⟩, ⟨"k", some "None"⟩, ⟨"ratio", some "None"⟩, ⟨"method", some "\"pascal_voc\""⟩, ⟨"ret_batch", some "False"⟩],
    [⟨"y_true", false, none⟩, ⟨"y_pred", false, none⟩, ⟨"k", true, none⟩, ⟨"ratio", true, some "None"⟩, ⟨"method", true, some "\"pascal_voc\""⟩, ⟨"ret_batch", true, some "False"⟩]⟩,
  ⟨"metrics/retrieval.py", 221, "ndcg",
    [⟨"y_true", none⟩, ⟨"y_pred", none⟩, ⟨"k", some "None"⟩, ⟨"ratio", some "None"⟩, ⟨"ret_batch", some "False"⟩],
    [⟨"y_true", false, none⟩, ⟨"y_pred", false, none⟩, ⟨"k", true, none⟩, ⟨"ratio", true, some "None"⟩, ⟨"ret_batch", true, some "False"⟩]⟩,
  ⟨"metrics/retrieval.py", 264, "rr",
    [⟨"y_true", none⟩, ⟨"y_pred", none⟩, ⟨"k", some "None"⟩, ⟨"ratio", some "None"⟩],
    [⟨"y_true", false, none⟩, ⟨"y_pred", false, none⟩, ⟨"k", true, none⟩, ⟨"ratio", true, some "None"⟩]⟩,
  ⟨"metrics/retrieval.py", 299, "mrr",
    [⟨"y_true", none⟩, ⟨"y_pred", none⟩, ⟨"k", some "None"⟩, ⟨"ratio", some "None"⟩, ⟨"ret_batch", some "False"⟩],
    [⟨"y_true", false, none⟩, ⟨"y_pred", false, none⟩, ⟨"k", true, none⟩, ⟨"ratio", true, some "None"⟩, ⟨"ret_batch", true, some "False"⟩]⟩,
  ⟨"metrics/retrieval.py", 388, "pr_curve",
    [⟨"y_true", none⟩, ⟨"y_pred", none⟩, ⟨"k", some "None"⟩, ⟨"ratio", some "None"⟩, ⟨"method", some "\"pascal_voc\""⟩, ⟨"n_points", some "11"⟩, ⟨"ret_batch", some "False"⟩],
    [⟨"y_true", false, none⟩, ⟨"y_pred", false, none⟩, ⟨"k", true, none⟩, ⟨"ratio", true, some "None"⟩, ⟨"method", true, some "\"pascal_voc\""⟩, ⟨"n_points", true, some "11"⟩, ⟨"ret_batch", true, some "False"⟩]⟩,
  ⟨"metrics/retrieval.py", 542, "RetrievalEvaluator",
    [⟨"metric_configs", none⟩, ⟨"validate_index", some "0"⟩],
    [⟨"metric_configs", false, none⟩, ⟨"validate_index", true, some "0"⟩]⟩,
  ⟨"metrics/retrieval.py", 547, "RetrievalEvaluator.validate_add_batch",
    [⟨"batch_y_true", none⟩, ⟨"batch_y_pred", none⟩],
    [⟨"batch_y_true", false, none⟩, ⟨"batch_y_pred", false, none⟩]⟩,
  ⟨"metrics/retrieval.py", 561, "RetrievalEvaluator.test_add_batch",
    [⟨"batch_y_true", none⟩, ⟨"batch_y_pred", none⟩],
    [⟨"batch_y_true", false, none⟩, ⟨"batch_y_pred", false, none⟩]⟩]

/-- models/graphs/bgnn.py:21,33,97,166,183,230 -/
def models_graphs_bgnn : List Fn := [
  ⟨"models/graphs/bgnn.py", 21, "BGNN_Adv",
    [⟨"u_dim", none⟩, ⟨"v_dim", none⟩, ⟨"layer_depth", some "3"⟩],
    [⟨"u_dim", false, none⟩, ⟨"v_dim", false, none⟩, ⟨"layer_depth", false, none⟩]⟩,
  ⟨"models/graphs/bgnn.py", 33, "BGNN_Adv.forward",
    [⟨"X_u", none⟩, ⟨"X_v", none⟩, ⟨"g", none⟩],
    [⟨"X_u", false, none⟩, ⟨"X_v", false, none⟩, ⟨"g", false, none⟩]⟩,
  ⟨"models/graphs/bgnn.py", 97, "BGNN_Adv.train_with_cascaded",
    [⟨"X_u", none⟩, ⟨"X_v", none⟩, ⟨"g", none⟩, ⟨"lr", none⟩, ⟨"weight_decay", none⟩, ⟨"max_epoch", none⟩, ⟨"drop_rate", some "0.5"⟩, ⟨"device", some "\"cpu\""⟩],
    [⟨"X_u", false, none⟩, ⟨"X_v", false, none⟩, ⟨"g", false, none⟩, ⟨"lr", false, none⟩, ⟨"weight_decay", false, none⟩, ⟨"max_epoch", false, none⟩, ⟨"drop_rate", true, some "0.5"⟩, ⟨"device", true, some "\"cpu\""⟩]⟩,
  ⟨"models/graphs/bgnn.py", 166, "BGNN_MLP",
    [⟨"u_dim", none⟩, ⟨"v_dim", none⟩, ⟨"hid_dim", none⟩, ⟨"decoder_hid_dim", none⟩, ⟨"drop_rate", some "0.5"⟩, ⟨"layer_depth", some "3"⟩],
    [⟨"u_dim", false, none⟩, ⟨"v_dim", false, none⟩, ⟨"hid_dim", false, none⟩, ⟨"decoder_hid_dim", false, none⟩, ⟨"drop_rate", true, some "0.5"⟩, ⟨"layer_depth", true, some "3"⟩]⟩,
  ⟨"models/graphs/bgnn.py", 183, "BGNN_MLP.forward",
    [⟨"X_u", none⟩, ⟨"X_v", none⟩, ⟨"g", none⟩],
    [⟨"X_u", false, none⟩, ⟨"X_v", false, none⟩, ⟨"g", false, none⟩]⟩,
  ⟨"models/graphs/bgnn.py", 230, "BGNN_MLP.train_with_cascaded",
    [⟨"X_u", none⟩, ⟨"X_v", none⟩, ⟨"g", none⟩, ⟨"lr", none⟩, ⟨"weight_decay", none⟩, ⟨"max_epoch", none⟩, ⟨"device", some "\"cpu\""⟩],
    [⟨"X_u", false, none⟩, ⟨"X_v", false, none⟩, ⟨"g", false, none⟩, ⟨"lr", false, none⟩, ⟨"weight_decay", false, none⟩, ⟨"max_epoch", false, none⟩, ⟨"device", true, some "\"cpu\""⟩]⟩]

/-- models/graphs/gat.py:21,54 -/
def models_graphs_gat : List Fn := [
  ⟨"models/graphs/gat.py", 21, "GAT",
    [⟨"in_channels", none⟩, ⟨"hid_channels", none⟩, ⟨"num_classes", none⟩, ⟨"num_heads", none⟩, ⟨"use_bn", some "False"⟩, ⟨"drop_rate", some "0.5"⟩, ⟨"atten_neg_slope", some "0.2"⟩],
    [⟨"in_channels", false, none⟩, ⟨"hid_channels", false, none⟩, ⟨"num_classes", false, none⟩, ⟨"num_heads", false, none⟩, ⟨"use_bn", true, some "False"⟩, ⟨"drop_rate", true, some "0.5"⟩, ⟨"atten_neg_slope", true, some "0.2"⟩]⟩,
  ⟨"models/graphs/gat.py", 54, "GAT.forward",
    [⟨"X", none⟩, ⟨"g", none⟩],
    [⟨"X", false, none⟩, ⟨"g", false, none⟩]⟩]

/-- models/graphs/gcn.py:18,28 -/
def models_graphs_gcn : List Fn := [
  ⟨"models/graphs/gcn.py", 18, "GCN",
    [⟨"in_channels", none⟩, ⟨"hid_channels", none⟩, ⟨"num_classes", none⟩, ⟨"use_bn", some "False"⟩, ⟨"drop_rate", some "0.5"⟩],
    [⟨"in_channels", false, none⟩, ⟨"hid_channels", false, none⟩, ⟨"num_classes", false, none⟩, ⟨"use_bn", true, some "False"⟩, ⟨"drop_rate", true, some "0.5"⟩]⟩,
  ⟨"models/graphs/gcn.py", 28, "GCN.forward",
    [⟨"X", none⟩, ⟨"g", none⟩],
    [⟨"X", false, none⟩, ⟨"g", false, none⟩]⟩]

/-- models/graphs/gin.py:24,67 -/
def models_graphs_gin : List Fn := [
  ⟨"models/graphs/gin.py", 24, "GIN",
    [⟨"in_channels", none⟩, ⟨"hid_channels", none⟩, ⟨"num_classes", none⟩, ⟨"num_layers", none⟩, ⟨"num_mlp_layers", some "2"⟩, ⟨"eps", some "0.0"⟩, ⟨"train_eps", some "False"⟩, ⟨"use_bn", some "False"⟩, ⟨"drop_rate", some "0.5"⟩],
    [⟨"in_channels", false, none⟩, ⟨"hid_channels", false, none⟩, ⟨"num_classes", false, none⟩, ⟨"num_layers", false, none⟩, ⟨"num_mlp_layers", true, some "2"⟩, ⟨"eps", true, some "0.0"⟩, ⟨"train_eps", true, some "False"⟩, ⟨"use_bn", true, some "False"⟩, ⟨"drop_rate", true, some "0.5"⟩]⟩,
  ⟨"models/graphs/gin.py", 67, "GIN.forward",
    [⟨"X", none⟩, ⟨"g", none⟩],
    [⟨"X", false, none⟩, ⟨"g", false, none⟩]⟩]

/-- models/graphs/graphsage.py:20,34 -/
def models_graphs_graphsage : List Fn := [
  ⟨"models/graphs/graphsage.py", 20, "GraphSAGE",
    [⟨"in_channels", none⟩, ⟨"hid_channels", none⟩, ⟨"num_classes", none⟩, ⟨"aggr", some "\"mean\""⟩, ⟨"use_bn", some "False"⟩, ⟨"drop_rate", some "0.5"⟩],
    [⟨"in_channels", false, none⟩, ⟨"hid_channels", false, none⟩, ⟨"num_classes", false, none⟩, ⟨"aggr", true, some "\"mean\""⟩, ⟨"use_bn", true, some "False"⟩, ⟨"drop_rate", true, some "0.5"⟩]⟩,
  ⟨"models/graphs/graphsage.py", 34, "GraphSAGE.forward",
    [⟨"X", none⟩, ⟨"g", none⟩],
    [⟨"X", false, none⟩, ⟨"g", false, none⟩]⟩]

/-- models/graphs/lightgcn.py:24,42 -/
def models_graphs_lightgcn : List Fn := [
  ⟨"models/graphs/lightgcn.py", 24, "LightGCN",
    [⟨"num_users", none⟩, ⟨"num_items", none⟩, ⟨"emb_dim", none⟩, ⟨"num_layers", some "3"⟩, ⟨"drop_rate", some "0.0"⟩],
    [⟨"num_users", false, none⟩, ⟨"num_items", false, none⟩, ⟨"emb_dim", false, none⟩, ⟨"num_layers", true, some "3"⟩, ⟨"drop_rate", true, some "0.0"⟩]⟩,
  ⟨"models/graphs/lightgcn.py", 42, "LightGCN.forward",
    [⟨"ui_bigraph", none⟩],
    [⟨"ui_bigraph", false, none⟩]⟩]

/-- models/graphs/ngcf.py:25,57 -/
def models_graphs_ngcf : List Fn := [
  ⟨"models/graphs/ngcf.py", 25, "NGCF",
    [⟨"num_users", none⟩, ⟨"num_items", none⟩, ⟨"emb_dim", none⟩, ⟨"num_layers", some "3"⟩, ⟨"drop_rate", some "0.5"⟩],
    [⟨"num_users", false, none⟩, ⟨"num_items", false, none⟩, ⟨"emb_dim", false, none⟩, ⟨"num_layers", true, some "3"⟩, ⟨"drop_rate", true, some "0.5"⟩]⟩,
  ⟨"models/graphs/ngcf.py", 57, "NGCF.forward",
    [⟨"ui_bigraph", none⟩],
    [⟨"ui_bigraph", false, none⟩]⟩]

/-- models/hypergraphs/dhcf.py:25,57 -/
def models_hypergraphs_dhcf : List Fn := [
  ⟨"models/hypergraphs/dhcf.py", 25, "DHCF",
    [⟨"num_users", none⟩, ⟨"num_items", none⟩, ⟨"emb_dim", none⟩, ⟨"num_layers", some "3"⟩, ⟨"drop_rate", some "0.5"⟩],
    [⟨"num_users", false, none⟩, ⟨"num_items", false, none⟩, ⟨"emb_dim", false, none⟩, ⟨"num_layers", true, some "3"⟩, ⟨"drop_rate", true, some "0.5"⟩]⟩,
  ⟨"models/hypergraphs/dhcf.py", 57, "DHCF.forward",
    [⟨"hg_ui", none⟩, ⟨"hg_iu", none⟩],
    [⟨"hg_ui", false, none⟩, ⟨"hg_iu", false, none⟩]⟩]

/-- models/hypergraphs/hgnn.py:19,36 -/
def models_hypergraphs_hgnn : List Fn := [
  ⟨"models/hypergraphs/hgnn.py", 19, "HGNN",
    [⟨"in_channels", none⟩, ⟨"hid_channels", none⟩, ⟨"num_classes", none⟩, ⟨"use_bn", some "False"⟩, ⟨"drop_rate", some "0.5"⟩],
    [⟨"in_channels", false, none⟩, ⟨"hid_channels", false, none⟩, ⟨"num_classes", false, none⟩, ⟨"use_bn", true, some "False"⟩, ⟨"drop_rate", true, some "0.5"⟩]⟩,
  ⟨"models/hypergraphs/hgnn.py", 36, "HGNN.forward",
    [⟨"X", none⟩, ⟨"hg", none⟩],
    [⟨"X", false, none⟩, ⟨"hg", false, none⟩]⟩]

/-- models/hypergraphs/hgnnp.py:19,36 -/
def models_hypergraphs_hgnnp : List Fn := [
  ⟨"models/hypergraphs/hgnnp.py", 19, "HGNNP",
    [⟨"in_channels", none⟩, ⟨"hid_channels", none⟩, ⟨"num_classes", none⟩, ⟨"use_bn", some "False"⟩, ⟨"drop_rate", some "0.5"⟩],
    [⟨"in_channels", false, none⟩, ⟨"hid_channels", false, none⟩, ⟨"num_classes", false, none⟩, ⟨"use_bn", true, some "False"⟩, ⟨"drop_rate", true, some "0.5"⟩]⟩,
  ⟨"models/hypergraphs/hgnnp.py", 36, "HGNNP.forward",
    [⟨"X", none⟩, ⟨"hg", none⟩],
    [⟨"X", false, none⟩, ⟨"hg", false, none⟩]⟩]

/-- models/hypergraphs/hnhn.py:19,36 -/
def models_hypergraphs_hnhn : List Fn := [
  ⟨"models/hypergraphs/hnhn.py", 19, "HNHN",
    [⟨"in_channels", none⟩, ⟨"hid_channels", none⟩, ⟨"num_classes", none⟩, ⟨"use_bn", some "False"⟩, ⟨"drop_rate", some "0.5"⟩],
    [⟨"in_channels", false, none⟩, ⟨"hid_channels", false, none⟩, ⟨"num_classes", false, none⟩, ⟨"use_bn", true, some "False"⟩, ⟨"drop_rate", true, some "0.5"⟩]⟩,
  ⟨"models/hypergraphs/hnhn.py", 36, "HNHN.forward",
    [⟨"X", none⟩, ⟨"hg", none⟩],
    [⟨"X", false, none⟩, ⟨"hg", false, none⟩]⟩]

/-- models/hypergraphs/hypergcn.py:21,47 -/
def models_hypergraphs_hypergcn : List Fn := [
  ⟨"models/hypergraphs/hypergcn.py", 21, "HyperGCN",
    [⟨"in_channels", none⟩, ⟨"hid_channels", none⟩, ⟨"num_classes", none⟩, ⟨"use_mediator", some "False"⟩, ⟨"use_bn", some "False"⟩, ⟨"fast", some "True"⟩, ⟨"drop_rate", some "0.5"⟩],
    [⟨"in_channels", false, none⟩, ⟨"hid_channels", false, none⟩, ⟨"num_classes", false, none⟩, ⟨"use_mediator", true, some "False"⟩, ⟨"fast", true, some "True"⟩, ⟨"drop_rate", true, some "0.5"⟩]⟩,
  ⟨"models/hypergraphs/hypergcn.py", 47, "HyperGCN.forward",
    [⟨"X", none⟩, ⟨"hg", none⟩],
    [⟨"X", false, none⟩, ⟨"hg", false, none⟩]⟩]

/-- models/hypergraphs/unignn.py:19,27,52,85,110,118,143,162 -/
def models_hypergraphs_unignn : List Fn := [
  ⟨"models/hypergraphs/unignn.py", 19, "UniGCN",
    [⟨"in_channels", none⟩, ⟨"hid_channels", none⟩, ⟨"num_classes", none⟩, ⟨"use_bn", some "False"⟩, ⟨"drop_rate", some "0.5"⟩],
    [⟨"in_channels", false, none⟩, ⟨"hid_channels", false, none⟩, ⟨"num_classes", false, none⟩, ⟨"use_bn", true, some "False"⟩, ⟨"drop_rate", true, some "0.5"⟩]⟩,
  ⟨"models/hypergraphs/unignn.py", 27, "UniGCN.forward",
    [⟨"X", none⟩, ⟨"hg", none⟩],
    [⟨"X", false, none⟩, ⟨"hg", false, none⟩]⟩,
  ⟨"models/hypergraphs/unignn.py", 52, "UniGAT",
    [⟨"in_channels", none⟩, ⟨"hid_channels", none⟩, ⟨"num_classes", none⟩, ⟨"num_heads", none⟩, ⟨"use_bn", some "False"⟩, ⟨"drop_rate", some "0.5"⟩, ⟨"atten_neg_slope", some "0.2"⟩],
    [⟨"in_channels", false, none⟩, ⟨"hid_channels", false, none⟩, ⟨"num_classes", false, none⟩, ⟨"num_heads", false, none⟩, ⟨"use_bn", true, some "False"⟩, ⟨"drop_rate", true, some "0.5"⟩, ⟨"atten_neg_slope", true, some "0.2"⟩]⟩,
  ⟨"models/hypergraphs/unignn.py", 85, "UniGAT.forward",
    [⟨"X", none⟩, ⟨"hg", none⟩],
    [⟨"X", false, none⟩, ⟨"hg", false, none⟩]⟩,
  ⟨"models/hypergraphs/unignn.py", 110, "UniSAGE",
    [⟨"in_channels", none⟩, ⟨"hid_channels", none⟩, ⟨"num_classes", none⟩, ⟨"use_bn", some "False"⟩, ⟨"drop_rate", some "0.5"⟩],
    [⟨"in_channels", false, none⟩, ⟨"hid_channels", false, none⟩, ⟨"num_classes", false, none⟩, ⟨"use_bn", true, some "False"⟩, ⟨"drop_rate", true, some "0.5"⟩]⟩,
  ⟨"models/hypergraphs/unignn.py", 118, "UniSAGE.forward",
    [⟨"X", none⟩, ⟨"hg", none⟩],
    [⟨"X", false, none⟩, ⟨"hg", false, none⟩]⟩,
  ⟨"models/hypergraphs/unignn.py", 143, "UniGIN",
    [⟨"in_channels", none⟩, ⟨"hid_channels", none⟩, ⟨"num_classes", none⟩, ⟨"eps", some "0.0"⟩, ⟨"train_eps", some "False"⟩, ⟨"use_bn", some "False"⟩, ⟨"drop_rate", some "0.5"⟩],
    [⟨"in_channels", false, none⟩, ⟨"hid_channels", false, none⟩, ⟨"num_classes", false, none⟩, ⟨"eps", true, some "0.0"⟩, ⟨"train_eps", true, some "False"⟩, ⟨"use_bn", true, some "False"⟩, ⟨"drop_rate", true, some "0.5"⟩]⟩,
  ⟨"models/hypergraphs/unignn.py", 162, "UniGIN.forward",
    [⟨"X", none⟩, ⟨"hg", none⟩],
    [⟨"X", false, none⟩, ⟨"hg", false, none⟩]⟩]

/-- nn/convs/common.py:19,120,131 -/
def nn_convs_common : List Fn := [
  ⟨"nn/convs/common.py", 19, "MLP",
    [⟨"channel_list", none⟩, ⟨"act_name", some "\"ReLU\""⟩, ⟨"act_kwargs", some "None"⟩, ⟨"use_bn", some "True"⟩, ⟨"drop_rate", some "0.5"⟩, ⟨"is_last", some "False"⟩],
    [⟨"channel_list", false, none⟩, ⟨"act_name", false, none⟩, ⟨"act_kwargs", true, some "None"⟩, ⟨"use_bn", false, none⟩, ⟨"drop_rate", true, some "0.5"⟩, ⟨"is_last", false, none⟩]⟩,
  ⟨"nn/convs/common.py", 120, "Discriminator",
    [⟨"in_channels", none⟩, ⟨"hid_channels", none⟩, ⟨"out_channels", none⟩, ⟨"drop_rate", some "0.5"⟩],
    [⟨"in_channels", false, none⟩, ⟨"hid_channels", false, none⟩, ⟨"out_channels", false, none⟩, ⟨"drop_rate", true, some "0.5"⟩]⟩,
  ⟨"nn/convs/common.py", 131, "Discriminator.forward",
    [⟨"X", none⟩],
    [⟨"X", false, none⟩]⟩]

/-- nn/convs/graphs/gat_conv.py:20 -/
def nn_convs_graphs_gat_conv : List Fn := [
  ⟨"nn/convs/graphs/gat_conv.py", 20, "GATConv",
    [⟨"in_channels", none⟩, ⟨"out_channels", none⟩, ⟨"bias", some "True"⟩, ⟨"use_bn", some "False"⟩, ⟨"drop_rate", some "0.5"⟩, ⟨"atten_neg_slope", some "0.2"⟩, ⟨"is_last", some "False"⟩],
    [⟨"in_channels", false, none⟩, ⟨"out_channels", false, none⟩, ⟨"bias", true, some "True"⟩, ⟨"use_bn", true, some "False"⟩, ⟨"drop_rate", true, some "0.5"⟩, ⟨"atten_neg_slope", true, some "0.2"⟩, ⟨"is_last", true, some "False"⟩]⟩]

/-- nn/convs/graphs/gcn_conv.py:27 -/
def nn_convs_graphs_gcn_conv : List Fn := [
  ⟨"nn/convs/graphs/gcn_conv.py", 27, "GCNConv",
    [⟨"in_channels", none⟩, ⟨"out_channels", none⟩, ⟨"bias", some "True"⟩, ⟨"use_bn", some "False"⟩, ⟨"drop_rate", some "0.5"⟩, ⟨"is_last", some "False"⟩],
    [⟨"in_channels", false, none⟩, ⟨"out_channels", false, none⟩, ⟨"bias", true, some "True"⟩, ⟨"use_bn", true, some "False"⟩, ⟨"drop_rate", true, some "0.5"⟩, ⟨"is_last", true, some "False"⟩]⟩]

/-- nn/convs/graphs/gin_conv.py:28 -/
def nn_convs_graphs_gin_conv : List Fn := [
  ⟨"nn/convs/graphs/gin_conv.py", 28, "GINConv",
    [⟨"MLP", none⟩, ⟨"eps", some "0.0"⟩, ⟨"train_eps", some "False"⟩],
    [⟨"MLP", false, none⟩, ⟨"eps", false, none⟩, ⟨"train_eps", false, none⟩]⟩]

/-- nn/convs/graphs/graphsage_conv.py:24 -/
def nn_convs_graphs_graphsage_conv : List Fn := [
  ⟨"nn/convs/graphs/graphsage_conv.py", 24, "GraphSAGEConv",
    [⟨"in_channels", none⟩, ⟨"out_channels", none⟩, ⟨"aggr", some "\"mean\""⟩, ⟨"bias", some "True"⟩, ⟨"use_bn", some "False"⟩, ⟨"drop_rate", some "0.5"⟩, ⟨"is_last", some "False"⟩],
    [⟨"in_channels", false, none⟩, ⟨"out_channels", false, none⟩, ⟨"aggr", true, some "\"mean\""⟩, ⟨"bias", true, some "True"⟩, ⟨"use_bn", true, some "False"⟩, ⟨"drop_rate", true, some "0.5"⟩, ⟨"is_last", true, some "False"⟩]⟩]

/-- nn/convs/hypergraphs/dhcf_conv.py:26 -/
def nn_convs_hypergraphs_dhcf_conv : List Fn := [
  ⟨"nn/convs/hypergraphs/dhcf_conv.py", 26, "JHConv",
    [⟨"in_channels", none⟩, ⟨"out_channels", none⟩, ⟨"bias", some "True"⟩, ⟨"use_bn", some "False"⟩, ⟨"drop_rate", some "0.5"⟩, ⟨"is_last", some "False"⟩],
    [⟨"in_channels", false, none⟩, ⟨"out_channels", false, none⟩, ⟨"bias", true, some "True"⟩, ⟨"use_bn", true, some "False"⟩, ⟨"drop_rate", true, some "0.5"⟩, ⟨"is_last", true, some "False"⟩]⟩]

/-- nn/convs/hypergraphs/hgnn_conv.py:29 -/
def nn_convs_hypergraphs_hgnn_conv : List Fn := [
  ⟨"nn/convs/hypergraphs/hgnn_conv.py", 29, "HGNNConv",
    [⟨"in_channels", none⟩, ⟨"out_channels", none⟩, ⟨"bias", some "True"⟩, ⟨"use_bn", some "False"⟩, ⟨"drop_rate", some "0.5"⟩, ⟨"is_last", some "False"⟩],
    [⟨"in_channels", false, none⟩, ⟨"out_channels", false, none⟩, ⟨"bias", true, some "True"⟩, ⟨"use_bn", true, some "False"⟩, ⟨"drop_rate", true, some "0.5"⟩, ⟨"is_last", true, some "False"⟩]⟩]

/-- nn/convs/hypergraphs/hgnnp_conv.py:38 -/
def nn_convs_hypergraphs_hgnnp_conv : List Fn := [
  ⟨"nn/convs/hypergraphs/hgnnp_conv.py", 38, "HGNNPConv",
    [⟨"in_channels", none⟩, ⟨"out_channels", none⟩, ⟨"bias", some "True"⟩, ⟨"use_bn", some "False"⟩, ⟨"drop_rate", some "0.5"⟩, ⟨"is_last", some "False"⟩],
    [⟨"in_channels", false, none⟩, ⟨"out_channels", false, none⟩, ⟨"bias", true, some "True"⟩, ⟨"use_bn", true, some "False"⟩, ⟨"drop_rate", true, some "0.5"⟩, ⟨"is_last", true, some "False"⟩]⟩]

/-- nn/convs/hypergraphs/hnhn_conv.py:19 -/
def nn_convs_hypergraphs_hnhn_conv : List Fn := [
  ⟨"nn/convs/hypergraphs/hnhn_conv.py", 19, "HNHNConv",
    [⟨"in_channels", none⟩, ⟨"out_channels", none⟩, ⟨"bias", some "True"⟩, ⟨"use_bn", some "False"⟩, ⟨"drop_rate", some "0.5"⟩, ⟨"is_last", some "False"⟩],
    [⟨"in_channels", false, none⟩, ⟨"out_channels", false, none⟩, ⟨"bias", true, some "True"⟩, ⟨"use_bn", true, some "False"⟩, ⟨"drop_rate", true, some "0.5"⟩, ⟨"is_last", true, some "False"⟩]⟩]

/-- nn/convs/hypergraphs/hypergcn_conv.py:23,41 -/
def nn_convs_hypergraphs_hypergcn_conv : List Fn := [
  ⟨"nn/convs/hypergraphs/hypergcn_conv.py", 23, "HyperGCNConv",
    [⟨"in_channels", none⟩, ⟨"out_channels", none⟩, ⟨"use_mediator", some "False"⟩, ⟨"bias", some "True"⟩, ⟨"use_bn", some "False"⟩, ⟨"drop_rate", some "0.5"⟩, ⟨"is_last", some "False"⟩],
    [⟨"in_channels", false, none⟩, ⟨"out_channels", false, none⟩, ⟨"use_mediator", true, some "False"⟩, ⟨"bias", true, some "True"⟩, ⟨"use_bn", true, some "False"⟩, ⟨"drop_rate", true, some "0.5"⟩, ⟨"is_last", true, some "False"⟩]⟩,
  ⟨"nn/convs/hypergraphs/hypergcn_conv.py", 41, "HyperGCNConv.forward",
    [⟨"X", none⟩, ⟨"hg", none⟩, ⟨"cached_g", some "None"⟩],
    [⟨"X", false, none⟩, ⟨"hg", false, none⟩, ⟨"cached_g", true, some "None"⟩]⟩]

/-- nn/convs/hypergraphs/unignn_conv.py:36,107,180,244 -/
def nn_convs_hypergraphs_unignn_conv : List Fn := [
  ⟨"nn/convs/hypergraphs/unignn_conv.py", 36, "UniGCNConv",
    [⟨"in_channels", none⟩, ⟨"out_channels", none⟩, ⟨"bias", some "True"⟩, ⟨"use_bn", some "False"⟩, ⟨"drop_rate", some "0.5"⟩, ⟨"is_last", some "False"⟩],
    [⟨"in_channels", false, none⟩, ⟨"out_channels", false, none⟩, ⟨"bias", true, some "True"⟩, ⟨"use_bn", true, some "False"⟩, ⟨"drop_rate", true, some "0.5"⟩, ⟨"is_last", true, some "False"⟩]⟩,
  ⟨"nn/convs/hypergraphs/unignn_conv.py", 107, "UniGATConv",
    [⟨"in_channels", none⟩, ⟨"out_channels", none⟩, ⟨"bias", some "True"⟩, ⟨"use_bn", some "False"⟩, ⟨"drop_rate", some "0.5"⟩, ⟨"atten_neg_slope", some "0.2"⟩, ⟨"is_last", some "False"⟩],
    [⟨"in_channels", false, none⟩, ⟨"out_channels", false, none⟩, ⟨"bias", true, some "True"⟩, ⟨"use_bn", true, some "False"⟩, ⟨"drop_rate", true, some "0.5"⟩, ⟨"atten_neg_slope", true, some "0.2"⟩, ⟨"is_last", true, some "False"⟩]⟩,
  ⟨"nn/convs/hypergraphs/unignn_conv.py", 180, "UniSAGEConv",
    [⟨"in_channels", none⟩, ⟨"out_channels", none⟩, ⟨"bias", some "True"⟩, ⟨"use_bn", some "False"⟩, ⟨"drop_rate", some "0.5"⟩, ⟨"is_last", some "False"⟩],
    [⟨"in_channels", false, none⟩, ⟨"out_channels", false, none⟩, ⟨"bias", true, some "True"⟩, ⟨"use_bn", true, some "False"⟩, ⟨"drop_rate", true, some "0.5"⟩, ⟨"is_last", true, some "False"⟩]⟩,
  ⟨"nn/convs/hypergraphs/unignn_conv.py", 244, "UniGINConv",
    [⟨"in_channels", none⟩, ⟨"out_channels", none⟩, ⟨"eps", some "0.0"⟩, ⟨"train_eps", some "False"⟩, ⟨"bias", some "True"⟩, ⟨"use_bn", some "False"⟩, ⟨"drop_rate", some "0.5"⟩, ⟨"is_last", some "False"⟩],
    [⟨"in_channels", false, none⟩, ⟨"out_channels", false, none⟩, ⟨"eps", true, some "0.0"⟩, ⟨"train_eps", true, some "False"⟩, ⟨"bias", true, some "True"⟩, ⟨"use_bn", true, some "False"⟩, ⟨"drop_rate", true, some "0.5"⟩, ⟨"is_last", true, some "False"⟩]⟩]

/-- nn/loss.py:14,21 -/
def nn_loss : List Fn := [
  ⟨"nn/loss.py", 14, "BPRLoss",
    [⟨"alpha", some "1.0"⟩, ⟨"beta", some "1.0"⟩, ⟨"activation", some "\"sigmoid_then_log\""⟩],
    [⟨"alpha", true, some "1.0"⟩, ⟨"beta", true, some "1.0"⟩, ⟨"activation", true, some "\"sigmoid_then_log\""⟩]⟩,
  ⟨"nn/loss.py", 21, "BPRLoss.forward",
    [⟨"pos_scores", none⟩, ⟨"neg_scores", none⟩],
    [⟨"pos_scores", false, none⟩, ⟨"neg_scores", false, none⟩]⟩]

/-- nn/regularization.py:15 -/
def nn_regularization : List Fn := [
  ⟨"nn/regularization.py", 15, "EmbeddingRegularization",
    [⟨"p", some "2"⟩, ⟨"weight_decay", some "0.0001"⟩],
    [⟨"p", true, some "2"⟩, ⟨"weight_decay", true, some "0.0001"⟩]⟩]

/-- random/_seed.py:20 -/
def random__seed : List Fn := [
  ⟨"random/_seed.py", 20, "set_seed",
    [⟨"seed", none⟩],
    [⟨"seed", false, none⟩]⟩]

/-- random/feature.py:6 -/
def random_feature : List Fn := [
  ⟨"random/feature.py", 6, "normal_features",
    [⟨"labels", none⟩, ⟨"noise", some "1.0"⟩],
    [⟨"labels", false, none⟩, ⟨"noise", true, some "1.0"⟩]⟩]

/-- random/graphs/bipartite_graph.py:8,57 -/
def random_graphs_bipartite_graph : List Fn := [
  ⟨"random/graphs/bipartite_graph.py", 8, "bigraph_Gnp",
    [⟨"num_u", none⟩, ⟨"num_v", none⟩, ⟨"prob", none⟩],
    [⟨"num_u", false, none⟩, ⟨"num_v", false, none⟩, ⟨"prob", false, none⟩]⟩,
  ⟨"random/graphs/bipartite_graph.py", 57, "bigraph_Gnm",
    [⟨"num_u", none⟩, ⟨"num_v", none⟩, ⟨"num_e", none⟩],
    [⟨"num_u", false, none⟩, ⟨"num_v", false, none⟩, ⟨"num_e", false, none⟩]⟩]

/-- random/graphs/directed_graph.py:8,30,72 -/
def random_graphs_directed_graph : List Fn := [
  ⟨"random/graphs/directed_graph.py", 8, "digraph_Gnp",
    [⟨"num_v", none⟩, ⟨"prob", none⟩],
    [⟨"num_v", false, none⟩, ⟨"prob", false, none⟩]⟩,
  ⟨"random/graphs/directed_graph.py", 30, "digraph_Gnp_fast",
    [⟨"num_v", none⟩, ⟨"prob", none⟩],
    [⟨"num_v", false, none⟩, ⟨"prob", false, none⟩]⟩,
  ⟨"random/graphs/directed_graph.py", 72, "digraph_Gnm",
    [⟨"num_v", none⟩, ⟨"num_e", none⟩],
    [⟨"num_v", false, none⟩, ⟨"num_e", false, none⟩]⟩]

/-- random/graphs/graph.py:8,30,62 -/
def random_graphs_graph : List Fn := [
  ⟨"random/graphs/graph.py", 8, "graph_Gnp",
    [⟨"num_v", none⟩, ⟨"prob", none⟩],
    [⟨"num_v", false, none⟩, ⟨"prob", false, none⟩]⟩,
  ⟨"random/graphs/graph.py", 30, "graph_Gnp_fast",
    [⟨"num_v", none⟩, ⟨"prob", none⟩],
    [⟨"num_v", false, none⟩, ⟨"prob", false, none⟩]⟩,
  ⟨"random/graphs/graph.py", 62, "graph_Gnm",
    [⟨"num_v", none⟩, ⟨"num_e", none⟩],
    [⟨"num_v", false, none⟩, ⟨"num_e", false, none⟩]⟩]

/-- random/hypergraphs/hypergraph.py:9,35,65 -/
def random_hypergraphs_hypergraph : List Fn := [
  ⟨"random/hypergraphs/hypergraph.py", 9, "uniform_hypergraph_Gnp",
    [⟨"k", none⟩, ⟨"num_v", none⟩, ⟨"prob", none⟩],
    [⟨"num_v", false, none⟩, ⟨"k", false, none⟩, ⟨"prob", false, none⟩]⟩,
  ⟨"random/hypergraphs/hypergraph.py", 35, "uniform_hypergraph_Gnm",
    [⟨"k", none⟩, ⟨"num_v", none⟩, ⟨"num_e", none⟩],
    [⟨"k", false, none⟩, ⟨"num_v", false, none⟩, ⟨"num_e", false, none⟩]⟩,
  ⟨"random/hypergraphs/hypergraph.py", 65, "hypergraph_Gnm",
    [⟨"num_v", none⟩, ⟨"num_e", none⟩, ⟨"method", some "\"low_order_first\""⟩, ⟨"prob_k_list", some "None"⟩],
    [⟨"num_v", false, none⟩, ⟨"num_e", false, none⟩, ⟨"method", true, some "\"uniform\""⟩]⟩]

/-- structure/base.py:10-1199 -/
def structure_base : List Fn := [
  ⟨"structure/base.py", 10, "load_structure",
    [⟨"file_path", none⟩],
    [⟨"file_path", false, none⟩]⟩,
  ⟨"structure/base.py", 40, "BaseGraph",
    [⟨"num_v", none⟩, ⟨"e_list", some "None"⟩, ⟨"e_weight", some "None"⟩, ⟨"extra_selfloop", some "False"⟩, ⟨"device", some "torch.device(\"cpu\")"⟩],
    [⟨"num_v", false, none⟩, ⟨"e_list", true, some "None"⟩, ⟨"e_weight", true, some "None"⟩, ⟨"extra_selfloop", true, some "False"⟩, ⟨"device", true, none⟩]⟩,
  ⟨"structure/base.py", 66, "BaseGraph.save",
    [⟨"file_path", none⟩],
    [⟨"file_path", false, none⟩]⟩,
  ⟨"structure/base.py", 74, "BaseGraph.load",
    [⟨"file_path", none⟩],
    [⟨"file_path", false, none⟩]⟩,
  ⟨"structure/base.py", 104, "BaseGraph.to",
    [⟨"device", none⟩],
    [⟨"device", false, none⟩]⟩,
  ⟨"structure/base.py", 147, "BaseGraph.from_state_dict",
    [⟨"state_dict", none⟩],
    [⟨"state_dict", false, none⟩]⟩,
  ⟨"structure/base.py", 156, "BaseGraph.from_adj_list",
    [⟨"num_v", none⟩, ⟨"adj_list", none⟩, ⟨"extra_selfloop", some "False"⟩],
    [⟨"num_v", false, none⟩, ⟨"adj_list", false, none⟩, ⟨"extra_selfloop", true, some "False"⟩]⟩,
  ⟨"structure/base.py", 173, "BaseGraph.add_edges",
    [⟨"e_list", none⟩, ⟨"e_weight", some "None"⟩, ⟨"merge_op", some "\"mean\""⟩],
    [⟨"e_list", false, none⟩, ⟨"e_weight", true, some "None"⟩, ⟨"merge_op", true, none⟩]⟩,
  ⟨"structure/base.py", 222, "BaseGraph.remove_edges",
    [⟨"e_list", none⟩],
    [⟨"e_list", false, none⟩]⟩,
  ⟨"structure/base.py", 262, "BaseGraph.drop_edges",
    [⟨"drop_rate", none⟩, ⟨"ord", some "\"uniform\""⟩],
    [⟨"drop_rate", false, none⟩, ⟨"ord", true, some "\"uniform\""⟩]⟩,
  ⟨"structure/base.py", 324, "BaseGraph.smoothing",
    [⟨"X", none⟩, ⟨"L", none⟩, ⟨"lamb", none⟩],
    [⟨"X", false, none⟩, ⟨"L", false, none⟩, ⟨"lamb", false, none⟩]⟩,
  ⟨"structure/base.py", 339, "BaseGraph.v2v",
    [⟨"X", none⟩, ⟨"aggr", some "\"mean\""⟩, ⟨"e_weight", some "None"⟩],
    [⟨"X", false, none⟩, ⟨"aggr", true, some "\"mean\""⟩, ⟨"e_weight", true, some "None"⟩]⟩,
  ⟨"structure/base.py", 367, "BaseHypergraph",
    [⟨"num_v", none⟩, ⟨"e_list_v2e", some "None"⟩, ⟨"e_list_e2v", some "None"⟩, ⟨"w_list_v2e", some "None"⟩, ⟨"w_list_e2v", some "None"⟩, ⟨"e_weight", some "None"⟩, ⟨"v_weight", some "None"⟩, ⟨"device", some "torch.device(\"cpu\")"⟩],
    [⟨"num_v", false, none⟩, ⟨"e_list_v2e", true, some "None"⟩, ⟨"e_list_e2v", true, some "None"⟩, ⟨"w_list_v2e", true, some "None"⟩, ⟨"w_list_e2v", true, some "None"⟩, ⟨"e_weight", true, some "None"⟩, ⟨"v_weight", true, some "None"⟩, ⟨"device", true, none⟩]⟩,
  ⟨"structure/base.py", 395, "BaseHypergraph.save",
    [⟨"file_path", none⟩],
    [⟨"file_path", false, none⟩]⟩,
  ⟨"structure/base.py", 403, "BaseHypergraph.load",
    [⟨"file_path", none⟩],
    [⟨"file_path", false, none⟩]⟩,
  ⟨"structure/base.py", 411, "BaseHypergraph.from_state_dict",
    [⟨"state_dict", none⟩],
    [⟨"state_dict", false, none⟩]⟩,
  ⟨"structure/base.py", 445, "BaseHypergraph.to",
    [⟨"device", none⟩],
    [⟨"device", false, none⟩]⟩,
  ⟨"structure/base.py", 605, "BaseHypergraph.add_hyperedges",
    [⟨"e_list_v2e", none⟩, ⟨"e_list_e2v", none⟩, ⟨"w_list_v2e", some "None"⟩, ⟨"w_list_e2v", some "None"⟩, ⟨"e_weight", some "None"⟩, ⟨"merge_op", some "\"mean\""⟩, ⟨"group_name", some "\"main\""⟩],
    [⟨"num_v", false, none⟩, ⟨"e_list_v2e", false, none⟩, ⟨"e_list_e2v", false, none⟩, ⟨"w_list_v2e", true, some "None"⟩, ⟨"w_list_e2v", true, some "None"⟩, ⟨"e_weight", true, some "None"⟩, ⟨"merge_op", true, some "\"mean\""⟩, ⟨"group_name", true, none⟩]⟩,
  ⟨"structure/base.py", 666, "BaseHypergraph.remove_hyperedges",
    [⟨"e_list_v2e", none⟩, ⟨"e_list_e2v", none⟩, ⟨"group_name", some "None"⟩],
    [⟨"e_list_v2e", false, none⟩, ⟨"e_list_e2v", false, none⟩, ⟨"group_name", true, none⟩]⟩,
  ⟨"structure/base.py", 736, "BaseHypergraph.subgraph",
    [⟨"v_list", none⟩, ⟨"keep_edges_with_only_one_nodes", some "True"⟩],
    [⟨"v_list", false, none⟩, ⟨"keep_edges_with_only_one_nodes", true, some "True"⟩]⟩,
  ⟨"structure/base.py", 775, "BaseHypergraph.drop_hyperedges",
    [⟨"drop_rate", none⟩, ⟨"ord", some "\"uniform\""⟩],
    [⟨"drop_rate", false, none⟩, ⟨"ord", true, some "\"uniform\""⟩]⟩,
  ⟨"structure/base.py", 784, "BaseHypergraph.drop_hyperedges_of_group",
    [⟨"group_name", none⟩, ⟨"drop_rate", none⟩, ⟨"ord", some "\"uniform\""⟩],
    [⟨"group_name", false, none⟩, ⟨"drop_rate", false, none⟩, ⟨"ord", true, some "\"uniform\""⟩]⟩,
  ⟨"structure/base.py", 825, "BaseHypergraph.e_of_group",
    [⟨"group_name", none⟩],
    [⟨"group_name", false, none⟩]⟩,
  ⟨"structure/base.py", 847, "BaseHypergraph.num_e_of_group",
    [⟨"group_name", none⟩],
    [⟨"group_name", false, none⟩]⟩,
  ⟨"structure/base.py", 892, "BaseHypergraph.W_e_of_group",
    [⟨"group_name", none⟩],
    [⟨"group_name", false, none⟩]⟩,
  ⟨"structure/base.py", 911, "BaseHypergraph.H_of_group",
    [⟨"group_name", none⟩],
    [⟨"group_name", false, none⟩]⟩,
  ⟨"structure/base.py", 927, "BaseHypergraph.H_v2e_of_group",
    [⟨"group_name", none⟩],
    [⟨"group_name", false, none⟩]⟩,
  ⟨"structure/base.py", 947, "BaseHypergraph.H_e2v_of_group",
    [⟨"group_name", none⟩],
    [⟨"group_name", false, none⟩]⟩,
  ⟨"structure/base.py", 967, "BaseHypergraph.R_v2e_of_group",
    [⟨"group_name", none⟩],
    [⟨"group_name", false, none⟩]⟩,
  ⟨"structure/base.py", 987, "BaseHypergraph.R_e2v_of_group",
    [⟨"group_name", none⟩],
    [⟨"group_name", false, none⟩]⟩,
  ⟨"structure/base.py", 999, "BaseHypergraph.smoothing",
    [⟨"X", none⟩, ⟨"L", none⟩, ⟨"lamb", none⟩],
    [⟨"X", false, none⟩, ⟨"L", false, none⟩, ⟨"lamb", false, none⟩]⟩,
  ⟨"structure/base.py", 1014, "BaseHypergraph.v2e_aggregation",
    [⟨"X", none⟩, ⟨"aggr", some "\"mean\""⟩, ⟨"v2e_weight", some "None"⟩],
    [⟨"X", false, none⟩, ⟨"aggr", false, none⟩, ⟨"v2e_weight", true, some "None"⟩]⟩,
  ⟨"structure/base.py", 1026, "BaseHypergraph.v2e_aggregation_of_group",
    [⟨"group_name", none⟩, ⟨"X", none⟩, ⟨"aggr", some "\"mean\""⟩, ⟨"v2e_weight", some "None"⟩],
    [⟨"group_name", false, none⟩, ⟨"X", false, none⟩, ⟨"aggr", false, none⟩, ⟨"v2e_weight", true, some "None"⟩]⟩,
  ⟨"structure/base.py", 1039, "BaseHypergraph.v2e_update",
    [⟨"X", none⟩, ⟨"e_weight", some "None"⟩],
    [⟨"X", false, none⟩, ⟨"e_weight", true, some "None"⟩]⟩,
  ⟨"structure/base.py", 1048, "BaseHypergraph.v2e_update_of_group",
    [⟨"group_name", none⟩, ⟨"X", none⟩, ⟨"e_weight", some "None"⟩],
    [⟨"group_name", false, none⟩, ⟨"X", false, none⟩, ⟨"e_weight", true, some "None"⟩]⟩,
  ⟨"structure/base.py", 1058, "BaseHypergraph.v2e",
    [⟨"X", none⟩, ⟨"aggr", some "\"mean\""⟩, ⟨"v2e_weight", some "None"⟩, ⟨"e_weight", some "None"⟩],
    [⟨"X", false, none⟩, ⟨"aggr", false, none⟩, ⟨"v2e_weight", true, some "None"⟩, ⟨"e_weight", true, some "None"⟩]⟩,
  ⟨"structure/base.py", 1075, "BaseHypergraph.v2e_of_group",
    [⟨"group_name", none⟩, ⟨"X", none⟩, ⟨"aggr", some "\"mean\""⟩, ⟨"v2e_weight", some "None"⟩, ⟨"e_weight", some "None"⟩],
    [⟨"group_name", false, none⟩, ⟨"X", false, none⟩, ⟨"aggr", false, none⟩, ⟨"v2e_weight", true, some "None"⟩, ⟨"e_weight", true, some "None"⟩]⟩,
  ⟨"structure/base.py", 1094, "BaseHypergraph.e2v_aggregation",
    [⟨"X", none⟩, ⟨"aggr", some "\"mean\""⟩, ⟨"e2v_weight", some "None"⟩],
    [⟨"X", false, none⟩, ⟨"aggr", false, none⟩, ⟨"e2v_weight", true, some "None"⟩]⟩,
  ⟨"structure/base.py", 1106, "BaseHypergraph.e2v_aggregation_of_group",
    [⟨"group_name", none⟩, ⟨"X", none⟩, ⟨"aggr", some "\"mean\""⟩, ⟨"e2v_weight", some "None"⟩],
    [⟨"group_name", false, none⟩, ⟨"X", false, none⟩, ⟨"aggr", false, none⟩, ⟨"e2v_weight", true, some "None"⟩]⟩,
  ⟨"structure/base.py", 1119, "BaseHypergraph.e2v_update",
    [⟨"X", none⟩, ⟨"v_weight", some "None"⟩],
    [⟨"X", false, none⟩, ⟨"v_weight", true, some "None"⟩]⟩,
  ⟨"structure/base.py", 1128, "BaseHypergraph.e2v_update_of_group",
    [⟨"group_name", none⟩, ⟨"X", none⟩, ⟨"v_weight", some "None"⟩],
    [⟨"group_name", false, none⟩, ⟨"X", false, none⟩, ⟨"v_weight", true, some "None"⟩]⟩,
  ⟨"structure/base.py", 1138, "BaseHypergraph.e2v",
    [⟨"X", none⟩, ⟨"aggr", some "\"mean\""⟩, ⟨"e2v_weight", some "None"⟩, ⟨"v_weight", some "None"⟩],
    [⟨"X", false, none⟩, ⟨"aggr", false, none⟩, ⟨"e2v_weight", true, some "None"⟩, ⟨"v_weight", true, some "None"⟩]⟩,
  ⟨"structure/base.py", 1155, "BaseHypergraph.e2v_of_group",
    [⟨"group_name", none⟩, ⟨"X", none⟩, ⟨"aggr", some "\"mean\""⟩, ⟨"e2v_weight", some "None"⟩, ⟨"v_weight", some "None"⟩],
    [⟨"group_name", false, none⟩, ⟨"X", false, none⟩, ⟨"aggr", false, none⟩, ⟨"e2v_weight", true, some "None"⟩, ⟨"v_weight", true, some "None"⟩]⟩,
  ⟨"structure/base.py", 1174, "BaseHypergraph.v2v",
    [⟨"X", none⟩, ⟨"aggr", some "\"mean\""⟩, ⟨"v2e_aggr", some "None"⟩, ⟨"v2e_weight", some "None"⟩, ⟨"e_weight", some "None"⟩, ⟨"e2v_aggr", some "None"⟩, ⟨"e2v_weight", some "None"⟩, ⟨"v_weight", some "None"⟩],
    [⟨"X", false, none⟩, ⟨"aggr", false, none⟩, ⟨"v2e_aggr", true, none⟩, ⟨"v2e_weight", true, some "None"⟩, ⟨"e_weight", true, some "None"⟩, ⟨"e2v_aggr", true, none⟩, ⟨"e2v_weight", true, some "None"⟩, ⟨"v_weight", true, some "None"⟩]⟩,
  ⟨"structure/base.py", 1199, "BaseHypergraph.v2v_of_group",
    [⟨"group_name", none⟩, ⟨"X", none⟩, ⟨"aggr", some "\"mean\""⟩, ⟨"v2e_aggr", some "None"⟩, ⟨"v2e_weight", some "None"⟩, ⟨"e_weight", some "None"⟩, ⟨"e2v_aggr", some "None"⟩, ⟨"e2v_weight", some "None"⟩, ⟨"v_weight", some "None"⟩],
    [⟨"group_name", false, none⟩, ⟨"X", false, none⟩, ⟨"aggr", false, none⟩, ⟨"v2e_aggr", true, none⟩, ⟨"v2e_weight", true, some "None"⟩, ⟨"e_weight", true, some "None"⟩, ⟨"e2v_aggr", true, none⟩, ⟨"e2v_weight", true, some "None"⟩, ⟨"v_weight", true, some "None"⟩]⟩]

/-- structure/graphs/bipartite_graph.py:28,57,73,86,171,210,221,245,281,325,345,418,426,559,568,625,643,696 -/
def structure_graphs_bipartite_graph : List Fn := [
  ⟨"structure/graphs/bipartite_graph.py", 28, "BiGraph",
    [⟨"num_u", none⟩, ⟨"num_v", none⟩, ⟨"e_list", some "None"⟩, ⟨"e_weight", some "None"⟩, ⟨"merge_op", some "\"mean\""⟩, ⟨"device", some "torch.device(\"cpu\")"⟩],
    [⟨"num_u", false, none⟩, ⟨"num_v", false, none⟩, ⟨"e_list", true, some "None"⟩, ⟨"e_weight", true, some "None"⟩, ⟨"merge_op", true, some "\"mean\""⟩, ⟨"device", true, none⟩]⟩,
  ⟨"structure/graphs/bipartite_graph.py", 57, "BiGraph.save",
    [⟨"file_path", none⟩],
    [⟨"file_path", false, none⟩]⟩,
  ⟨"structure/graphs/bipartite_graph.py", 73, "BiGraph.load",
    [⟨"file_path", none⟩],
    [⟨"file_path", false, none⟩]⟩,
  ⟨"structure/graphs/bipartite_graph.py", 86, "BiGraph.draw",
    [⟨"e_style", some "\"line\""⟩, ⟨"u_label", some "None"⟩, ⟨"u_size", some "1.0"⟩, ⟨"u_color", some "\"m\""⟩, ⟨"u_line_width", some "1.0"⟩, ⟨"v_label", some "None"⟩, ⟨"v_size", some "1.0"⟩, ⟨"v_color", some "\"r\""⟩, ⟨"v_line_width", some "1.0"⟩, ⟨"e_color", some "\"gray\""⟩, ⟨"e_line_width", some "1.0"⟩, ⟨"u_font_size", some "1.0"⟩, ⟨"v_font_size", some "1.0"⟩, ⟨"font_family", some "\"sans-serif\""⟩, ⟨"push_u_strength", some "1.0"⟩, ⟨"push_v_strength", some "1.0"⟩, ⟨"push_e_strength", some "1.0"⟩, ⟨"pull_e_strength", some "1.0"⟩, ⟨"pull_u_center_strength", some "1.0"⟩, ⟨"pull_v_center_strength", some "1.0"⟩],
    [⟨"e_style", true, some "\"line\""⟩, ⟨"u_label", true, some "None"⟩, ⟨"u_size", true, some "1.0"⟩, ⟨"u_color", true, some "\"m\""⟩, ⟨"u_line_width", true, some "1.0"⟩, ⟨"v_label", true, some "None"⟩, ⟨"v_size", true, some "1.0"⟩, ⟨"v_color", true, some "\"r\""⟩, ⟨"v_line_width", true, some "1.0"⟩, ⟨"e_color", true, some "\"gray\""⟩, ⟨"e_line_width", true, some "1.0"⟩, ⟨"u_font_size", true, some "1.0"⟩, ⟨"v_font_size", true, some "1.0"⟩, ⟨"font_family", true, some "\"sans-serif\""⟩, ⟨"push_u_strength", true, some "1.0"⟩, ⟨"push_v_strength", true, some "1.0"⟩, ⟨"push_e_strength", true, some "1.0"⟩, ⟨"pull_e_strength", true, some "1.0"⟩, ⟨"pull_u_center_strength", true, some "1.0"⟩, ⟨"pull_v_center_strength", true, some "1.0"⟩]⟩,
  ⟨"structure/graphs/bipartite_graph.py", 171, "BiGraph.to",
    [⟨"device", none⟩],
    [⟨"device", false, none⟩]⟩,
  ⟨"structure/graphs/bipartite_graph.py", 210, "BiGraph.from_state_dict",
    [⟨"state_dict", none⟩],
    [⟨"state_dict", false, none⟩]⟩,
  ⟨"structure/graphs/bipartite_graph.py", 221, "BiGraph.from_adj_list",
    [⟨"num_u", none⟩, ⟨"num_v", none⟩, ⟨"adj_list", none⟩, ⟨"device", some "torch.device(\"cpu\")"⟩],
    [⟨"num_u", false, none⟩, ⟨"num_v", false, none⟩, ⟨"adj_list", false, none⟩, ⟨"device", true, none⟩]⟩,
  ⟨"structure/graphs/bipartite_graph.py", 245, "BiGraph.from_hypergraph",
    [⟨"hypergraph", none⟩, ⟨"vertex_as_U", some "True"⟩, ⟨"weighted", some "False"⟩, ⟨"device", some "torch.device(\"cpu\")"⟩],
    [⟨"hypergraph", false, none⟩, ⟨"vertex_as_U", true, some "True"⟩, ⟨"weighted", true, some "False"⟩, ⟨"device", true, none⟩]⟩,
  ⟨"structure/graphs/bipartite_graph.py", 281, "BiGraph.add_edges",
    [⟨"e_list", none⟩, ⟨"e_weight", some "None"⟩, ⟨"merge_op", some "\"mean\""⟩],
    [⟨"e_list", false, none⟩, ⟨"e_weight", true, some "None"⟩, ⟨"merge_op", true, some "\"mean\""⟩]⟩,
  ⟨"structure/graphs/bipartite_graph.py", 325, "BiGraph.remove_edges",
    [⟨"e_list", none⟩],
    [⟨"e_list", false, none⟩]⟩,
  ⟨"structure/graphs/bipartite_graph.py", 345, "BiGraph.drop_edges",
    [⟨"drop_rate", none⟩, ⟨"ord", some "\"uniform\""⟩],
    [⟨"drop_rate", false, none⟩, ⟨"ord", true, some "\"uniform\""⟩]⟩,
  ⟨"structure/graphs/bipartite_graph.py", 418, "BiGraph.nbr_v",
    [⟨"u_idx", none⟩],
    [⟨"u_idx", false, none⟩]⟩,
  ⟨"structure/graphs/bipartite_graph.py", 426, "BiGraph.nbr_u",
    [⟨"v_idx", none⟩],
    [⟨"v_idx", false, none⟩]⟩,
  ⟨"structure/graphs/bipartite_graph.py", 559, "BiGraph.N_v",
    [⟨"u_idx", none⟩],
    [⟨"u_idx", false, none⟩]⟩,
  ⟨"structure/graphs/bipartite_graph.py", 568, "BiGraph.N_u",
    [⟨"v_idx", none⟩],
    [⟨"v_idx", false, none⟩]⟩,
  ⟨"structure/graphs/bipartite_graph.py", 625, "BiGraph.smoothing_with_GCN",
    [⟨"X", none⟩, ⟨"drop_rate", some "0.0"⟩],
    [⟨"X", false, none⟩, ⟨"drop_rate", true, some "0.0"⟩]⟩,
  ⟨"structure/graphs/bipartite_graph.py", 643, "BiGraph.u2v",
    [⟨"X", none⟩, ⟨"aggr", some "\"mean\""⟩, ⟨"e_weight", some "None"⟩, ⟨"drop_rate", some "0.0"⟩],
    [⟨"X", false, none⟩, ⟨"aggr", true, some "\"mean\""⟩, ⟨"e_weight", true, some "None"⟩, ⟨"drop_rate", true, some "0.0"⟩]⟩,
  ⟨"structure/graphs/bipartite_graph.py", 696, "BiGraph.v2u",
    [⟨"X", none⟩, ⟨"aggr", some "\"mean\""⟩, ⟨"e_weight", some "None"⟩, ⟨"drop_rate", some "0.0"⟩],
    [⟨"X", false, none⟩, ⟨"aggr", true, some "\"mean\""⟩, ⟨"e_weight", true, some "None"⟩, ⟨"drop_rate", true, some "0.0"⟩]⟩]

/-- structure/graphs/directed_graph.py:28,57,70,83,149,160,172,199,252,271,302,365,373,493,502,538 -/
def structure_graphs_directed_graph : List Fn := [
  ⟨"structure/graphs/directed_graph.py", 28, "DiGraph",
    [⟨"num_v", none⟩, ⟨"e_list", some "None"⟩, ⟨"e_weight", some "None"⟩, ⟨"extra_selfloop", some "False"⟩, ⟨"merge_op", some "\"mean\""⟩, ⟨"device", some "torch.device(\"cpu\")"⟩],
    [⟨"num_v", false, none⟩, ⟨"e_list", true, some "None"⟩, ⟨"e_weight", true, some "None"⟩, ⟨"extra_selfloop", true, some "False"⟩, ⟨"merge_op", true, some "\"mean\""⟩, ⟨"device", true, none⟩]⟩,
  ⟨"structure/graphs/directed_graph.py", 57, "DiGraph.save",
    [⟨"file_path", none⟩],
    [⟨"file_path", false, none⟩]⟩,
  ⟨"structure/graphs/directed_graph.py", 70, "DiGraph.load",
    [⟨"file_path", none⟩],
    [⟨"file_path", false, none⟩]⟩,
  ⟨"structure/graphs/directed_graph.py", 83, "DiGraph.draw",
    [⟨"e_style", some "\"line\""⟩, ⟨"v_label", some "None"⟩, ⟨"v_size", some "1.0"⟩, ⟨"v_color", some "\"r\""⟩, ⟨"v_line_width", some "1.0"⟩, ⟨"e_color", some "\"gray\""⟩, ⟨"e_line_width", some "1.0"⟩, ⟨"font_size", some "1.0"⟩, ⟨"font_family", some "\"sans-serif\""⟩, ⟨"push_v_strength", some "1.0"⟩, ⟨"push_e_strength", some "1.0"⟩, ⟨"pull_e_strength", some "1.0"⟩, ⟨"pull_center_strength", some "1.0"⟩],
    [⟨"e_style", true, some "\"line\""⟩, ⟨"v_label", true, some "None"⟩, ⟨"v_size", true, some "1.0"⟩, ⟨"v_color", true, some "\"r\""⟩, ⟨"v_line_width", true, some "1.0"⟩, ⟨"e_color", true, some "\"gray\""⟩, ⟨"e_line_width", true, some "1.0"⟩, ⟨"font_size", true, some "1.0"⟩, ⟨"font_family", true, some "\"sans-serif\""⟩, ⟨"push_v_strength", true, some "1.0"⟩, ⟨"push_e_strength", true, some "1.0"⟩, ⟨"pull_e_strength", true, some "1.0"⟩, ⟨"pull_center_strength", true, some "1.0"⟩]⟩,
  ⟨"structure/graphs/directed_graph.py", 149, "DiGraph.to",
    [⟨"device", none⟩],
    [⟨"device", false, none⟩]⟩,
  ⟨"structure/graphs/directed_graph.py", 160, "DiGraph.from_state_dict",
    [⟨"state_dict", none⟩],
    [⟨"state_dict", false, none⟩]⟩,
  ⟨"structure/graphs/directed_graph.py", 172, "DiGraph.from_adj_list",
    [⟨"num_v", none⟩, ⟨"adj_list", none⟩, ⟨"extra_selfloop", some "False"⟩, ⟨"device", some "torch.device(\"cpu\")"⟩],
    [⟨"num_v", false, none⟩, ⟨"adj_list", false, none⟩, ⟨"extra_selfloop", true, some "False"⟩, ⟨"device", true, none⟩]⟩,
  ⟨"structure/graphs/directed_graph.py", 199, "DiGraph.from_feature_kNN",
    [⟨"features", none⟩, ⟨"k", none⟩, ⟨"p", some "2"⟩, ⟨"distance2weight", some "False"⟩, ⟨"include_center", some "False"⟩, ⟨"center_as_src", some "True"⟩, ⟨"device", some "torch.device(\"cpu\")"⟩],
    [⟨"features", false, none⟩, ⟨"k", false, none⟩, ⟨"p", true, some "2"⟩, ⟨"distance2weight", true, some "False"⟩, ⟨"include_center", true, some "False"⟩, ⟨"center_as_src", true, some "True"⟩, ⟨"device", true, none⟩]⟩,
  ⟨"structure/graphs/directed_graph.py", 252, "DiGraph.add_edges",
    [⟨"e_list", none⟩, ⟨"e_weight", some "None"⟩, ⟨"merge_op", some "\"mean\""⟩],
    [⟨"e_list", false, none⟩, ⟨"e_weight", true, some "None"⟩, ⟨"merge_op", true, some "\"mean\""⟩]⟩,
  ⟨"structure/graphs/directed_graph.py", 271, "DiGraph.remove_edges",
    [⟨"e_list", none⟩],
    [⟨"e_list", false, none⟩]⟩,
  ⟨"structure/graphs/directed_graph.py", 302, "DiGraph.drop_edges",
    [⟨"drop_rate", none⟩, ⟨"ord", some "\"uniform\""⟩],
    [⟨"drop_rate", false, none⟩, ⟨"ord", true, some "\"uniform\""⟩]⟩,
  ⟨"structure/graphs/directed_graph.py", 365, "DiGraph.nbr_v_in",
    [⟨"v_idx", none⟩],
    [⟨"v_idx", false, none⟩]⟩,
  ⟨"structure/graphs/directed_graph.py", 373, "DiGraph.nbr_v_out",
    [⟨"v_idx", none⟩],
    [⟨"v_idx", false, none⟩]⟩,
  ⟨"structure/graphs/directed_graph.py", 493, "DiGraph.N_v_in",
    [⟨"v_idx", none⟩],
    [⟨"v_idx", false, none⟩]⟩,
  ⟨"structure/graphs/directed_graph.py", 502, "DiGraph.N_v_out",
    [⟨"v_idx", none⟩],
    [⟨"v_idx", false, none⟩]⟩,
  ⟨"structure/graphs/directed_graph.py", 538, "DiGraph.v2v",
    [⟨"X", none⟩, ⟨"aggr", some "\"mean\""⟩, ⟨"e_weight", some "None"⟩, ⟨"direction", some "\"dst2src\""⟩, ⟨"drop_rate", some "0.0"⟩],
    [⟨"X", false, none⟩, ⟨"aggr", true, some "\"mean\""⟩, ⟨"e_weight", true, some "None"⟩, ⟨"direction", true, some "\"dst2src\""⟩, ⟨"drop_rate", true, some "0.0"⟩]⟩]

/-- structure/graphs/graph.py:29,58,74,87,156,168,180,207,234,259,307,328,356,424,525,636,654 -/
def structure_graphs_graph : List Fn := [
  ⟨"structure/graphs/graph.py", 29, "Graph",
    [⟨"num_v", none⟩, ⟨"e_list", some "None"⟩, ⟨"e_weight", some "None"⟩, ⟨"extra_selfloop", some "False"⟩, ⟨"merge_op", some "\"mean\""⟩, ⟨"device", some "torch.device(\"cpu\")"⟩],
    [⟨"num_v", false, none⟩, ⟨"e_list", true, some "None"⟩, ⟨"e_weight", true, some "None"⟩, ⟨"extra_selfloop", true, some "False"⟩, ⟨"merge_op", true, some "\"mean\""⟩, ⟨"device", true, none⟩]⟩,
  ⟨"structure/graphs/graph.py", 58, "Graph.save",
    [⟨"file_path", none⟩],
    [⟨"file_path", false, none⟩]⟩,
  ⟨"structure/graphs/graph.py", 74, "Graph.load",
    [⟨"file_path", none⟩],
    [⟨"file_path", false, none⟩]⟩,
  ⟨"structure/graphs/graph.py", 87, "Graph.draw",
    [⟨"e_style", some "\"line\""⟩, ⟨"v_label", some "None"⟩, ⟨"v_size", some "1.0"⟩, ⟨"v_color", some "\"r\""⟩, ⟨"v_line_width", some "1.0"⟩, ⟨"e_color", some "\"gray\""⟩, ⟨"e_fill_color", some "\"whitesmoke\""⟩, ⟨"e_line_width", some "1.0"⟩, ⟨"font_size", some "1.0"⟩, ⟨"font_family", some "\"sans-serif\""⟩, ⟨"push_v_strength", some "1.0"⟩, ⟨"push_e_strength", some "1.0"⟩, ⟨"pull_e_strength", some "1.0"⟩, ⟨"pull_center_strength", some "1.0"⟩],
    [⟨"e_style", true, some "\"line\""⟩, ⟨"v_label", true, some "None"⟩, ⟨"v_size", true, some "1.0"⟩, ⟨"v_color", true, some "\"r\""⟩, ⟨"v_line_width", true, some "1.0"⟩, ⟨"e_color", true, some "\"gray\""⟩, ⟨"e_fill_color", true, some "\"whitesmoke\""⟩, ⟨"e_line_width", true, some "1.0"⟩, ⟨"font_size", true, some "1.0"⟩, ⟨"font_family", true, some "\"sans-serif\""⟩, ⟨"push_v_strength", true, some "1.0"⟩, ⟨"push_e_strength", true, some "1.0"⟩, ⟨"pull_e_strength", true, some "1.0"⟩, ⟨"pull_center_strength", true, some "1.0"⟩]⟩,
  ⟨"structure/graphs/graph.py", 156, "Graph.to",
    [⟨"device", none⟩],
    [⟨"device", false, none⟩]⟩,
  ⟨"structure/graphs/graph.py", 168, "Graph.from_state_dict",
    [⟨"state_dict", none⟩],
    [⟨"state_dict", false, none⟩]⟩,
  ⟨"structure/graphs/graph.py", 180, "Graph.from_adj_list",
    [⟨"num_v", none⟩, ⟨"adj_list", none⟩, ⟨"extra_selfloop", some "False"⟩, ⟨"device", some "torch.device(\"cpu\")"⟩],
    [⟨"num_v", false, none⟩, ⟨"adj_list", false, none⟩, ⟨"extra_selfloop", true, some "False"⟩, ⟨"device", true, none⟩]⟩,
  ⟨"structure/graphs/graph.py", 207, "Graph.from_hypergraph_star",
    [⟨"hypergraph", none⟩, ⟨"weighted", some "False"⟩, ⟨"merge_op", some "\"sum\""⟩, ⟨"device", some "torch.device(\"cpu\")"⟩],
    [⟨"hypergraph", false, none⟩, ⟨"weighted", true, some "False"⟩, ⟨"merge_op", true, some "\"sum\""⟩, ⟨"device", true, none⟩]⟩,
  ⟨"structure/graphs/graph.py", 234, "Graph.from_hypergraph_clique",
    [⟨"hypergraph", none⟩, ⟨"weighted", some "False"⟩, ⟨"miu", some "1.0"⟩, ⟨"device", some "torch.device(\"cpu\")"⟩],
    [⟨"hypergraph", false, none⟩, ⟨"weighted", true, some "False"⟩, ⟨"miu", true, some "1.0"⟩, ⟨"device", true, none⟩]⟩,
  ⟨"structure/graphs/graph.py", 259, "Graph.from_hypergraph_hypergcn",
    [⟨"hypergraph", none⟩, ⟨"feature", none⟩, ⟨"with_mediator", some "False"⟩, ⟨"remove_selfloop", some "True"⟩, ⟨"device", some "torch.device(\"cpu\")"⟩],
    [⟨"hypergraph", false, none⟩, ⟨"feature", false, none⟩, ⟨"with_mediator", true, some "False"⟩, ⟨"remove_selfloop", true, some "True"⟩, ⟨"device", true, none⟩]⟩,
  ⟨"structure/graphs/graph.py", 307, "Graph.add_edges",
    [⟨"e_list", none⟩, ⟨"e_weight", some "None"⟩, ⟨"merge_op", some "\"mean\""⟩],
    [⟨"e_list", false, none⟩, ⟨"e_weight", true, some "None"⟩, ⟨"merge_op", true, some "\"mean\""⟩]⟩,
  ⟨"structure/graphs/graph.py", 328, "Graph.remove_edges",
    [⟨"e_list", none⟩],
    [⟨"e_list", false, none⟩]⟩,
  ⟨"structure/graphs/graph.py", 356, "Graph.drop_edges",
    [⟨"drop_rate", none⟩, ⟨"ord", some "\"uniform\""⟩],
    [⟨"drop_rate", false, none⟩, ⟨"ord", true, some "\"uniform\""⟩]⟩,
  ⟨"structure/graphs/graph.py", 424, "Graph.nbr_v",
    [⟨"v_idx", none⟩, ⟨"hop", some "1"⟩],
    [⟨"v_idx", false, none⟩, ⟨"hop", false, none⟩]⟩,
  ⟨"structure/graphs/graph.py", 525, "Graph.N_v",
    [⟨"v_idx", none⟩, ⟨"hop", some "1"⟩],
    [⟨"v_idx", false, none⟩, ⟨"hop", false, none⟩]⟩,
  ⟨"structure/graphs/graph.py", 636, "Graph.smoothing_with_GCN",
    [⟨"X", none⟩, ⟨"drop_rate", some "0.0"⟩],
    [⟨"X", false, none⟩, ⟨"drop_rate", true, some "0.0"⟩]⟩,
  ⟨"structure/graphs/graph.py", 654, "Graph.v2v",
    [⟨"X", none⟩, ⟨"aggr", some "\"mean\""⟩, ⟨"e_weight", some "None"⟩, ⟨"drop_rate", some "0.0"⟩],
    [⟨"X", false, none⟩, ⟨"aggr", true, some "\"mean\""⟩, ⟨"e_weight", true, some "None"⟩, ⟨"drop_rate", true, some "0.0"⟩]⟩]

/-- structure/hypergraphs/hypergraph.py:30-1659 -/
def structure_hypergraphs_hypergraph : List Fn := [
  ⟨"structure/hypergraphs/hypergraph.py", 30, "Hypergraph",
    [⟨"num_v", none⟩, ⟨"e_list", some "None"⟩, ⟨"e_weight", some "None"⟩, ⟨"v_weight", some "None"⟩, ⟨"merge_op", some "\"mean\""⟩, ⟨"device", some "torch.device(\"cpu\")"⟩],
    [⟨"num_v", false, none⟩, ⟨"e_list", true, some "None"⟩, ⟨"e_weight", true, some "None"⟩, ⟨"v_weight", true, some "None"⟩, ⟨"merge_op", true, some "\"mean\""⟩, ⟨"device", true, none⟩]⟩,
  ⟨"structure/hypergraphs/hypergraph.py", 61, "Hypergraph.save",
    [⟨"file_path", none⟩],
    [⟨"file_path", false, none⟩]⟩,
  ⟨"structure/hypergraphs/hypergraph.py", 77, "Hypergraph.load",
    [⟨"file_path", none⟩],
    [⟨"file_path", false, none⟩]⟩,
  ⟨"structure/hypergraphs/hypergraph.py", 90, "Hypergraph.draw",
    [⟨"e_style", some "\"circle\""⟩, ⟨"v_label", some "None"⟩, ⟨"v_size", some "1.0"⟩, ⟨"v_color", some "\"r\""⟩, ⟨"v_line_width", some "1.0"⟩, ⟨"e_color", some "\"gray\""⟩, ⟨"e_fill_color", some "\"whitesmoke\""⟩, ⟨"e_line_width", some "1.0"⟩, ⟨"font_size", some "1.0"⟩, ⟨"font_family", some "\"sans-serif\""⟩, ⟨"push_v_strength", some "1.0"⟩, ⟨"push_e_strength", some "1.0"⟩, ⟨"pull_e_strength", some "1.0"⟩, ⟨"pull_center_strength", some "1.0"⟩],
    [⟨"e_style", true, some "\"circle\""⟩, ⟨"v_label", true, some "None"⟩, ⟨"v_size", true, some "1.0"⟩, ⟨"v_color", true, some "\"r\""⟩, ⟨"v_line_width", true, some "1.0"⟩, ⟨"e_color", true, some "\"gray\""⟩, ⟨"e_fill_color", true, some "\"whitesmoke\""⟩, ⟨"e_line_width", true, some "1.0"⟩, ⟨"font_size", true, some "1.0"⟩, ⟨"font_family", true, some "\"sans-serif\""⟩, ⟨"push_v_strength", true, some "1.0"⟩, ⟨"push_e_strength", true, some "1.0"⟩, ⟨"pull_e_strength", true, some "1.0"⟩, ⟨"pull_center_strength", true, some "1.0"⟩]⟩,
  ⟨"structure/hypergraphs/hypergraph.py", 157, "Hypergraph.to",
    [⟨"device", none⟩],
    [⟨"device", false, none⟩]⟩,
  ⟨"structure/hypergraphs/hypergraph.py", 168, "Hypergraph.from_state_dict",
    [⟨"state_dict", none⟩],
    [⟨"state_dict", false, none⟩]⟩,
  ⟨"structure/hypergraphs/hypergraph.py", 195, "Hypergraph.from_feature_kNN",
    [⟨"features", none⟩, ⟨"k", none⟩, ⟨"device", some "torch.device(\"cpu\")"⟩],
    [⟨"features", false, none⟩, ⟨"k", false, none⟩, ⟨"device", true, none⟩]⟩,
  ⟨"structure/hypergraphs/hypergraph.py", 211, "Hypergraph.from_graph",
    [⟨"graph", none⟩, ⟨"device", some "torch.device(\"cpu\")"⟩],
    [⟨"graph", false, none⟩, ⟨"device", true, none⟩]⟩,
  ⟨"structure/hypergraphs/hypergraph.py", 254, "Hypergraph.from_graph_kHop",
    [⟨"graph", none⟩, ⟨"k", none⟩, ⟨"only_kHop", some "False"⟩, ⟨"device", some "torch.device(\"cpu\")"⟩],
    [⟨"graph", false, none⟩, ⟨"k", false, none⟩, ⟨"only_kHop", true, none⟩, ⟨"device", true, none⟩]⟩,
  ⟨"structure/hypergraphs/hypergraph.py", 297, "Hypergraph.from_bigraph",
    [⟨"bigraph", none⟩, ⟨"U_as_vertex", some "True"⟩, ⟨"device", some "torch.device(\"cpu\")"⟩],
    [⟨"bigraph", false, none⟩, ⟨"U_as_vertex", true, some "True"⟩, ⟨"device", true, none⟩]⟩,
  ⟨"structure/hypergraphs/hypergraph.py", 319, "Hypergraph.add_hyperedges",
    [⟨"e_list", none⟩, ⟨"e_weight", some "None"⟩, ⟨"merge_op", some "\"mean\""⟩, ⟨"group_name", some "\"main\""⟩],
    [⟨"num_v", false, none⟩, ⟨"e_list", false, none⟩, ⟨"e_weight", true, some "None"⟩, ⟨"merge_op", true, some "\"mean\""⟩, ⟨"group_name", true, none⟩]⟩,
  ⟨"structure/hypergraphs/hypergraph.py", 352, "Hypergraph.add_hyperedges_from_feature_kNN",
    [⟨"feature", none⟩, ⟨"k", none⟩, ⟨"group_name", some "\"main\""⟩],
    [⟨"features", false, none⟩, ⟨"k", false, none⟩, ⟨"group_name", true, none⟩]⟩,
  ⟨"structure/hypergraphs/hypergraph.py", 366, "Hypergraph.add_hyperedges_from_graph",
    [⟨"graph", none⟩, ⟨"group_name", some "\"main\""⟩],
    [⟨"graph", false, none⟩, ⟨"group_name", true, none⟩]⟩,
  ⟨"structure/hypergraphs/hypergraph.py", 377, "Hypergraph.add_hyperedges_from_graph_kHop",
    [⟨"graph", none⟩, ⟨"k", none⟩, ⟨"only_kHop", some "False"⟩, ⟨"group_name", some "\"main\""⟩],
    [⟨"graph", false, none⟩, ⟨"k", false, none⟩, ⟨"only_kHop", true, none⟩, ⟨"group_name", true, none⟩]⟩,
  ⟨"structure/hypergraphs/hypergraph.py", 395, "Hypergraph.add_hyperedges_from_bigraph",
    [⟨"bigraph", none⟩, ⟨"U_as_vertex", some "False"⟩, ⟨"group_name", some "\"main\""⟩],
    [⟨"bigraph", false, none⟩, ⟨"U_as_vertex", true, some "True"⟩, ⟨"group_name", true, none⟩]⟩,
  ⟨"structure/hypergraphs/hypergraph.py", 417, "Hypergraph.remove_hyperedges",
    [⟨"e_list", none⟩, ⟨"group_name", some "None"⟩],
    [⟨"e_list", false, none⟩, ⟨"group_name", true, none⟩]⟩,
  ⟨"structure/hypergraphs/hypergraph.py", 442, "Hypergraph.remove_group",
    [⟨"group_name", none⟩],
    [⟨"group_name", false, none⟩]⟩,
  ⟨"structure/hypergraphs/hypergraph.py", 451, "Hypergraph.drop_hyperedges",
    [⟨"drop_rate", none⟩, ⟨"ord", some "\"uniform\""⟩],
    [⟨"drop_rate", false, none⟩, ⟨"ord", true, some "\"uniform\""⟩]⟩,
  ⟨"structure/hypergraphs/hypergraph.py", 472, "Hypergraph.drop_hyperedges_of_group",
    [⟨"group_name", none⟩, ⟨"drop_rate", none⟩, ⟨"ord", some "\"uniform\""⟩],
    [⟨"group_name", false, none⟩, ⟨"drop_rate", false, none⟩, ⟨"ord", true, some "\"uniform\""⟩]⟩,
  ⟨"structure/hypergraphs/hypergraph.py", 526, "Hypergraph.e_of_group",
    [⟨"group_name", none⟩],
    [⟨"group_name", false, none⟩]⟩,
  ⟨"structure/hypergraphs/hypergraph.py", 551, "Hypergraph.num_e_of_group",
    [⟨"group_name", none⟩],
    [⟨"group_name", false, none⟩]⟩,
  ⟨"structure/hypergraphs/hypergraph.py", 565, "Hypergraph.deg_v_of_group",
    [⟨"group_name", none⟩],
    [⟨"group_name", false, none⟩]⟩,
  ⟨"structure/hypergraphs/hypergraph.py", 580, "Hypergraph.deg_e_of_group",
    [⟨"group_name", none⟩],
    [⟨"group_name", false, none⟩]⟩,
  ⟨"structure/hypergraphs/hypergraph.py", 589, "Hypergraph.nbr_e",
    [⟨"v_idx", none⟩],
    [⟨"v_idx", false, none⟩]⟩,
  ⟨"structure/hypergraphs/hypergraph.py", 597, "Hypergraph.nbr_e_of_group",
    [⟨"v_idx", none⟩, ⟨"group_name", none⟩],
    [⟨"v_idx", false, none⟩, ⟨"group_name", false, none⟩]⟩,
  ⟨"structure/hypergraphs/hypergraph.py", 607, "Hypergraph.nbr_v",
    [⟨"e_idx", none⟩],
    [⟨"e_idx", false, none⟩]⟩,
  ⟨"structure/hypergraphs/hypergraph.py", 615, "Hypergraph.nbr_v_of_group",
    [⟨"e_idx", none⟩, ⟨"group_name", none⟩],
    [⟨"e_idx", false, none⟩, ⟨"group_name", false, none⟩]⟩,
  ⟨"structure/hypergraphs/hypergraph.py", 686, "Hypergraph.v2e_src_of_group",
    [⟨"group_name", none⟩],
    [⟨"group_name", false, none⟩]⟩,
  ⟨"structure/hypergraphs/hypergraph.py", 701, "Hypergraph.v2e_dst_of_group",
    [⟨"group_name", none⟩],
    [⟨"group_name", false, none⟩]⟩,
  ⟨"structure/hypergraphs/hypergraph.py", 716, "Hypergraph.v2e_weight_of_group",
    [⟨"group_name", none⟩],
    [⟨"group_name", false, none⟩]⟩,
  ⟨"structure/hypergraphs/hypergraph.py", 731, "Hypergraph.e2v_src_of_group",
    [⟨"group_name", none⟩],
    [⟨"group_name", false, none⟩]⟩,
  ⟨"structure/hypergraphs/hypergraph.py", 746, "Hypergraph.e2v_dst_of_group",
    [⟨"group_name", none⟩],
    [⟨"group_name", false, none⟩]⟩,
  ⟨"structure/hypergraphs/hypergraph.py", 761, "Hypergraph.e2v_weight_of_group",
    [⟨"group_name", none⟩],
    [⟨"group_name", false, none⟩]⟩,
  ⟨"structure/hypergraphs/hypergraph.py", 778, "Hypergraph.H_of_group",
    [⟨"group_name", none⟩],
    [⟨"group_name", false, none⟩]⟩,
  ⟨"structure/hypergraphs/hypergraph.py", 797, "Hypergraph.H_T_of_group",
    [⟨"group_name", none⟩],
    [⟨"group_name", false, none⟩]⟩,
  ⟨"structure/hypergraphs/hypergraph.py", 839, "Hypergraph.W_e_of_group",
    [⟨"group_name", none⟩],
    [⟨"group_name", false, none⟩]⟩,
  ⟨"structure/hypergraphs/hypergraph.py", 872, "Hypergraph.D_v_of_group",
    [⟨"group_name", none⟩],
    [⟨"group_name", false, none⟩]⟩,
  ⟨"structure/hypergraphs/hypergraph.py", 907, "Hypergraph.D_v_neg_1_of_group",
    [⟨"group_name", none⟩],
    [⟨"group_name", false, none⟩]⟩,
  ⟨"structure/hypergraphs/hypergraph.py", 936, "Hypergraph.D_v_neg_1_2_of_group",
    [⟨"group_name", none⟩],
    [⟨"group_name", false, none⟩]⟩,
  ⟨"structure/hypergraphs/hypergraph.py", 968, "Hypergraph.D_e_of_group",
    [⟨"group_name", none⟩],
    [⟨"group_name", false, none⟩]⟩,
  ⟨"structure/hypergraphs/hypergraph.py", 999, "Hypergraph.D_e_neg_1_of_group",
    [⟨"group_name", none⟩],
    [⟨"group_name", false, none⟩]⟩,
  ⟨"structure/hypergraphs/hypergraph.py", 1015, "Hypergraph.N_e",
    [⟨"v_idx", none⟩],
    [⟨"v_idx", false, none⟩]⟩,
  ⟨"structure/hypergraphs/hypergraph.py", 1031, "Hypergraph.N_e_of_group",
    [⟨"v_idx", none⟩, ⟨"group_name", none⟩],
    [⟨"v_idx", false, none⟩, ⟨"group_name", false, none⟩]⟩,
  ⟨"structure/hypergraphs/hypergraph.py", 1046, "Hypergraph.N_v",
    [⟨"e_idx", none⟩],
    [⟨"e_idx", false, none⟩]⟩,
  ⟨"structure/hypergraphs/hypergraph.py", 1062, "Hypergraph.N_v_of_group",
    [⟨"e_idx", none⟩, ⟨"group_name", none⟩],
    [⟨"e_idx", false, none⟩, ⟨"group_name", false, none⟩]⟩,
  ⟨"structure/hypergraphs/hypergraph.py", 1099, "Hypergraph.L_sym_of_group",
    [⟨"group_name", none⟩],
    [⟨"group_name", false, none⟩]⟩,
  ⟨"structure/hypergraphs/hypergraph.py", 1140, "Hypergraph.L_rw_of_group",
    [⟨"group_name", none⟩],
    [⟨"group_name", false, none⟩]⟩,
  ⟨"structure/hypergraphs/hypergraph.py", 1183, "Hypergraph.L_HGNN_of_group",
    [⟨"group_name", none⟩],
    [⟨"group_name", false, none⟩]⟩,
  ⟨"structure/hypergraphs/hypergraph.py", 1205, "Hypergraph.smoothing_with_HGNN",
    [⟨"X", none⟩, ⟨"drop_rate", some "0.0"⟩],
    [⟨"X", false, none⟩, ⟨"drop_rate", true, some "0.0"⟩]⟩,
  ⟨"structure/hypergraphs/hypergraph.py", 1223, "Hypergraph.smoothing_with_HGNN_of_group",
    [⟨"group_name", none⟩, ⟨"X", none⟩, ⟨"drop_rate", some "0.0"⟩],
    [⟨"group_name", false, none⟩, ⟨"X", false, none⟩, ⟨"drop_rate", true, some "0.0"⟩]⟩,
  ⟨"structure/hypergraphs/hypergraph.py", 1246, "Hypergraph.v2e_aggregation",
    [⟨"X", none⟩, ⟨"aggr", some "\"mean\""⟩, ⟨"v2e_weight", some "None"⟩, ⟨"drop_rate", some "0.0"⟩],
    [⟨"X", false, none⟩, ⟨"aggr", false, none⟩, ⟨"v2e_weight", true, some "None"⟩, ⟨"drop_rate", true, some "0.0"⟩]⟩,
  ⟨"structure/hypergraphs/hypergraph.py", 1298, "Hypergraph.v2e_aggregation_of_group",
    [⟨"group_name", none⟩, ⟨"X", none⟩, ⟨"aggr", some "\"mean\""⟩, ⟨"v2e_weight", some "None"⟩, ⟨"drop_rate", some "0.0"⟩],
    [⟨"group_name", false, none⟩, ⟨"X", false, none⟩, ⟨"aggr", false, none⟩, ⟨"v2e_weight", true, some "None"⟩, ⟨"drop_rate", true, some "0.0"⟩]⟩,
  ⟨"structure/hypergraphs/hypergraph.py", 1362, "Hypergraph.v2e_update",
    [⟨"X", none⟩, ⟨"e_weight", some "None"⟩],
    [⟨"X", false, none⟩, ⟨"e_weight", true, some "None"⟩]⟩,
  ⟨"structure/hypergraphs/hypergraph.py", 1379, "Hypergraph.v2e_update_of_group",
    [⟨"group_name", none⟩, ⟨"X", none⟩, ⟨"e_weight", some "None"⟩],
    [⟨"group_name", false, none⟩, ⟨"X", false, none⟩, ⟨"e_weight", true, some "None"⟩]⟩,
  ⟨"structure/hypergraphs/hypergraph.py", 1400, "Hypergraph.v2e",
    [⟨"X", none⟩, ⟨"aggr", some "\"mean\""⟩, ⟨"v2e_weight", some "None"⟩, ⟨"e_weight", some "None"⟩, ⟨"drop_rate", some "0.0"⟩],
    [⟨"X", false, none⟩, ⟨"aggr", false, none⟩, ⟨"v2e_weight", true, some "None"⟩, ⟨"e_weight", true, some "None"⟩, ⟨"drop_rate", true, some "0.0"⟩]⟩,
  ⟨"structure/hypergraphs/hypergraph.py", 1421, "Hypergraph.v2e_of_group",
    [⟨"group_name", none⟩, ⟨"X", none⟩, ⟨"aggr", some "\"mean\""⟩, ⟨"v2e_weight", some "None"⟩, ⟨"e_weight", some "None"⟩, ⟨"drop_rate", some "0.0"⟩],
    [⟨"group_name", false, none⟩, ⟨"X", false, none⟩, ⟨"aggr", false, none⟩, ⟨"v2e_weight", true, some "None"⟩, ⟨"e_weight", true, some "None"⟩, ⟨"drop_rate", true, some "0.0"⟩]⟩,
  ⟨"structure/hypergraphs/hypergraph.py", 1445, "Hypergraph.e2v_aggregation",
    [⟨"X", none⟩, ⟨"aggr", some "\"mean\""⟩, ⟨"e2v_weight", some "None"⟩, ⟨"drop_rate", some "0.0"⟩],
    [⟨"X", false, none⟩, ⟨"aggr", false, none⟩, ⟨"e2v_weight", true, some "None"⟩, ⟨"drop_rate", true, some "0.0"⟩]⟩,
  ⟨"structure/hypergraphs/hypergraph.py", 1497, "Hypergraph.e2v_aggregation_of_group",
    [⟨"group_name", none⟩, ⟨"X", none⟩, ⟨"aggr", some "\"mean\""⟩, ⟨"e2v_weight", some "None"⟩, ⟨"drop_rate", some "0.0"⟩],
    [⟨"group_name", false, none⟩, ⟨"X", false, none⟩, ⟨"aggr", false, none⟩, ⟨"e2v_weight", true, some "None"⟩, ⟨"drop_rate", true, some "0.0"⟩]⟩,
  ⟨"structure/hypergraphs/hypergraph.py", 1561, "Hypergraph.e2v_update",
    [⟨"X", none⟩],
    [⟨"X", false, none⟩]⟩,
  ⟨"structure/hypergraphs/hypergraph.py", 1571, "Hypergraph.e2v_update_of_group",
    [⟨"group_name", none⟩, ⟨"X", none⟩],
    [⟨"group_name", false, none⟩, ⟨"X", false, none⟩]⟩,
  ⟨"structure/hypergraphs/hypergraph.py", 1583, "Hypergraph.e2v",
    [⟨"X", none⟩, ⟨"aggr", some "\"mean\""⟩, ⟨"e2v_weight", some "None"⟩, ⟨"drop_rate", some "0.0"⟩],
    [⟨"X", false, none⟩, ⟨"aggr", false, none⟩, ⟨"e2v_weight", true, some "None"⟩, ⟨"drop_rate", true, some "0.0"⟩]⟩,
  ⟨"structure/hypergraphs/hypergraph.py", 1598, "Hypergraph.e2v_of_group",
    [⟨"group_name", none⟩, ⟨"X", none⟩, ⟨"aggr", some "\"mean\""⟩, ⟨"e2v_weight", some "None"⟩, ⟨"drop_rate", some "0.0"⟩],
    [⟨"group_name", false, none⟩, ⟨"X", false, none⟩, ⟨"aggr", false, none⟩, ⟨"e2v_weight", true, some "None"⟩, ⟨"drop_rate", true, some "0.0"⟩]⟩,
  ⟨"structure/hypergraphs/hypergraph.py", 1620, "Hypergraph.v2v",
    [⟨"X", none⟩, ⟨"aggr", some "\"mean\""⟩, ⟨"drop_rate", some "0.0"⟩, ⟨"v2e_aggr", some "None"⟩, ⟨"v2e_weight", some "None"⟩, ⟨"v2e_drop_rate", some "None"⟩, ⟨"e_weight", some "None"⟩, ⟨"e2v_aggr", some "None"⟩, ⟨"e2v_weight", some "None"⟩, ⟨"e2v_drop_rate", some "None"⟩],
    [⟨"X", false, none⟩, ⟨"aggr", false, none⟩, ⟨"drop_rate", true, some "0.0"⟩, ⟨"v2e_aggr", true, none⟩, ⟨"v2e_weight", true, some "None"⟩, ⟨"v2e_drop_rate", true, some "None"⟩, ⟨"e_weight", true, some "None"⟩, ⟨"e2v_aggr", true, none⟩, ⟨"e2v_weight", true, some "None"⟩, ⟨"e2v_drop_rate", true, some "None"⟩]⟩,
  ⟨"structure/hypergraphs/hypergraph.py", 1659, "Hypergraph.v2v_of_group",
    [⟨"group_name", none⟩, ⟨"X", none⟩, ⟨"aggr", some "\"mean\""⟩, ⟨"drop_rate", some "0.0"⟩, ⟨"v2e_aggr", some "None"⟩, ⟨"v2e_weight", some "None"⟩, ⟨"v2e_drop_rate", some "None"⟩, ⟨"e_weight", some "None"⟩, ⟨"e2v_aggr", some "None"⟩, ⟨"e2v_weight", some "None"⟩, ⟨"e2v_drop_rate", some "None"⟩],
    [⟨"group_name", false, none⟩, ⟨"X", false, none⟩, ⟨"aggr", false, none⟩, ⟨"drop_rate", true, some "0.0"⟩, ⟨"v2e_aggr", true, none⟩, ⟨"v2e_weight", true, some "None"⟩, ⟨"v2e_drop_rate", true, some "None"⟩, ⟨"e_weight", true, some "None"⟩, ⟨"e2v_aggr", true, none⟩, ⟨"e2v_weight", true, some "None"⟩, ⟨"e2v_drop_rate", true, some "None"⟩]⟩]

/-- utils/dataset_wrapers.py:22,53 -/
def utils_dataset_wrapers : List Fn := [
  ⟨"utils/dataset_wrapers.py", 22, "UserItemDataset",
    [⟨"num_users", none⟩, ⟨"num_items", none⟩, ⟨"user_item_list", none⟩, ⟨"train_user_item_list", some "None"⟩, ⟨"strict_link", some "True"⟩, ⟨"phase", some "\"train\""⟩],
    [⟨"num_users", false, none⟩, ⟨"num_items", false, none⟩, ⟨"user_item_list", false, none⟩, ⟨"train_user_item_list", true, some "None"⟩, ⟨"strict_link", true, some "True"⟩, ⟨"phase", true, some "\"train\""⟩]⟩,
  ⟨"utils/dataset_wrapers.py", 53, "UserItemDataset.sample_neg_item",
    [⟨"user", none⟩],
    [⟨"user", false, none⟩]⟩]

/-- utils/download.py:9,26,83 -/
def utils_download : List Fn := [
  ⟨"utils/download.py", 9, "download_file",
    [⟨"url", none⟩, ⟨"file_path", none⟩],
    [⟨"url", false, none⟩, ⟨"file_path", false, none⟩]⟩,
  ⟨"utils/download.py", 26, "check_file",
    [⟨"file_path", none⟩, ⟨"md5", none⟩],
    [⟨"file_path", false, none⟩, ⟨"md5", false, none⟩]⟩,
  ⟨"utils/download.py", 83, "download_and_check",
    [⟨"url", none⟩, ⟨"file_path", none⟩, ⟨"md5", none⟩],
    [⟨"url", false, none⟩, ⟨"file_path", false, none⟩, ⟨"md5", false, none⟩]⟩]

/-- utils/logging.py:14 -/
def utils_logging : List Fn := [
  ⟨"utils/logging.py", 14, "simple_stdout2file",
    [⟨"file_path", none⟩],
    [⟨"file_path", false, none⟩]⟩]

/-- utils/sparse.py:4 -/
def utils_sparse : List Fn := [
  ⟨"utils/sparse.py", 4, "sparse_dropout",
    [⟨"sp_mat", none⟩, ⟨"p", none⟩, ⟨"fill_value", some "0.0"⟩],
    [⟨"sp_mat", false, none⟩, ⟨"p", false, none⟩, ⟨"fill_value", true, some "0.0"⟩]⟩]

/-- utils/structure.py:5,21,36,55,143 -/
def utils_structure : List Fn := [
  ⟨"utils/structure.py", 5, "edge_list_to_adj_list",
    [⟨"e_list", none⟩],
    [⟨"e_list", false, none⟩]⟩,
  ⟨"utils/structure.py", 21, "edge_list_to_adj_dict",
    [⟨"e_list", none⟩],
    [⟨"e_list", false, none⟩]⟩,
  ⟨"utils/structure.py", 36, "adj_list_to_edge_list",
    [⟨"adj_list", none⟩],
    [⟨"adj_list", false, none⟩]⟩,
  ⟨"utils/structure.py", 55, "remap_edge_list",
    [⟨"e_list", none⟩, ⟨"bipartite_graph", some "False"⟩, ⟨"ret_map", some "False"⟩],
    [⟨"e_list", false, none⟩, ⟨"bipartite_graph", true, some "False"⟩, ⟨"ret_map", true, some "False"⟩]⟩,
  ⟨"utils/structure.py", 143, "remap_adj_list",
    [⟨"adj_list", none⟩, ⟨"bipartite_graph", some "False"⟩, ⟨"ret_map", some "False"⟩],
    [⟨"adj_list", false, none⟩, ⟨"bipartite_graph", true, some "False"⟩, ⟨"ret_map", true, some "False"⟩]⟩]

/-- visualization/feature/utils.py:15,42,61,90,100,114,126,135,147 -/
def visualization_feature_utils : List Fn := [
  ⟨"visualization/feature/utils.py", 15, "make_animation",
    [⟨"embeddings", none⟩, ⟨"colors", none⟩, ⟨"cmap", some "\"viridis\""⟩],
    [⟨"embeddings", false, none⟩, ⟨"colors", false, none⟩, ⟨"cmap", true, some "\"viridis\""⟩]⟩,
  ⟨"visualization/feature/utils.py", 42, "plot_2d_embedding",
    [⟨"embeddings", none⟩, ⟨"label", some "None"⟩, ⟨"cmap", some "\"viridis\""⟩],
    [⟨"embeddings", false, none⟩, ⟨"label", true, none⟩, ⟨"cmap", true, some "\"viridis\""⟩]⟩,
  ⟨"visualization/feature/utils.py", 61, "plot_3d_embedding",
    [⟨"embeddings", none⟩, ⟨"label", some "None"⟩, ⟨"cmap", some "\"viridis\""⟩],
    [⟨"embeddings", false, none⟩, ⟨"label", true, none⟩, ⟨"cmap", true, some "\"viridis\""⟩]⟩,
  ⟨"visualization/feature/utils.py", 90, "tanh",
    [⟨"x", none⟩, ⟨"clamp", some "15"⟩],
    [⟨"x", false, none⟩, ⟨"clap", false, none⟩]⟩,
  ⟨"visualization/feature/utils.py", 100, "proj",
    [⟨"x", none⟩, ⟨"c", none⟩],
    [⟨"x", false, none⟩, ⟨"c", false, none⟩]⟩,
  ⟨"visualization/feature/utils.py", 114, "expmap0",
    [⟨"u", none⟩, ⟨"c", none⟩],
    [⟨"u", false, none⟩, ⟨"c", false, none⟩]⟩,
  ⟨"visualization/feature/utils.py", 126, "proj_tan0",
    [⟨"u", none⟩, ⟨"c", none⟩],
    [⟨"u", false, none⟩, ⟨"c", false, none⟩]⟩,
  ⟨"visualization/feature/utils.py", 135, "logmap0",
    [⟨"p", none⟩, ⟨"c", none⟩],
    [⟨"p", false, none⟩, ⟨"c", false, none⟩]⟩,
  ⟨"visualization/feature/utils.py", 147, "project_to_poincare_ball",
    [⟨"embeddings", none⟩, ⟨"dim", some "2"⟩, ⟨"reduce_method", some "\"pca\""⟩],
    [⟨"feature", false, none⟩, ⟨"dim", true, some "2"⟩, ⟨"reduce_method", true, some "\"pca\""⟩]⟩]

/-- visualization/feature/visualization.py:15,37,62,89 -/
def visualization_feature_visualization : List Fn := [
  ⟨"visualization/feature/visualization.py", 15, "draw_in_euclidean_space",
    [⟨"embeddings", none⟩, ⟨"label", some "None"⟩, ⟨"dim", some "2"⟩, ⟨"cmap", some "\"viridis\""⟩],
    [⟨"feature", false, none⟩, ⟨"label", true, none⟩, ⟨"dim", true, some "2"⟩, ⟨"cmap", true, some "\"viridis\""⟩]⟩,
  ⟨"visualization/feature/visualization.py", 37, "draw_in_poincare_ball",
    [⟨"embeddings", none⟩, ⟨"label", some "None"⟩, ⟨"dim", some "2"⟩, ⟨"reduce_method", some "\"pca\""⟩, ⟨"cmap", some "\"viridis\""⟩],
    [⟨"feature", false, none⟩, ⟨"label", true, some "None"⟩, ⟨"dim", true, some "2"⟩, ⟨"reduce_method", true, some "\"pca\""⟩, ⟨"cmap", true, some "\"viridis\""⟩]⟩,
  ⟨"visualization/feature/visualization.py", 62, "animation_of_3d_poincare_ball",
    [⟨"embeddings", none⟩, ⟨"label", some "None"⟩, ⟨"reduce_method", some "\"pca\""⟩, ⟨"cmap", some "\"viridis\""⟩],
    [⟨"feature", false, none⟩, ⟨"label", true, some "None"⟩, ⟨"reduce_method", true, some "\"pca\""⟩, ⟨"cmap", true, some "\"viridis\""⟩]⟩,
  ⟨"visualization/feature/visualization.py", 89, "animation_of_3d_euclidean_space",
    [⟨"embeddings", none⟩, ⟨"label", some "None"⟩, ⟨"cmap", some "\"viridis\""⟩],
    [⟨"feature", false, none⟩, ⟨"label", true, some "None"⟩, ⟨"cmap", true, some "\"viridis\""⟩]⟩]

/-- visualization/structure/draw.py:23,92,157,272 -/
def visualization_structure_draw : List Fn := [
  ⟨"visualization/structure/draw.py", 23, "draw_graph",
    [⟨"g", none⟩, ⟨"e_style", some "\"line\""⟩, ⟨"v_label", some "None"⟩, ⟨"v_size", some "1.0"⟩, ⟨"v_color", some "\"r\""⟩, ⟨"v_line_width", some "1.0"⟩, ⟨"e_color", some "\"gray\""⟩, ⟨"e_fill_color", some "\"whitesmoke\""⟩, ⟨"e_line_width", some "1.0"⟩, ⟨"font_size", some "1.0"⟩, ⟨"font_family", some "\"sans-serif\""⟩, ⟨"push_v_strength", some "1.0"⟩, ⟨"push_e_strength", some "1.0"⟩, ⟨"pull_e_strength", some "1.0"⟩, ⟨"pull_center_strength", some "1.0"⟩],
    [⟨"g", false, none⟩, ⟨"e_style", true, some "\"line\""⟩, ⟨"v_label", true, some "None"⟩, ⟨"v_size", true, some "1.0"⟩, ⟨"v_color", true, some "\"r\""⟩, ⟨"v_line_width", true, some "1.0"⟩, ⟨"e_color", true, some "\"gray\""⟩, ⟨"e_fill_color", true, some "\"whitesmoke\""⟩, ⟨"e_line_width", true, some "1.0"⟩, ⟨"font_size", true, some "1.0"⟩, ⟨"font_family", true, some "\"sans-serif\""⟩, ⟨"push_v_strength", true, some "1.0"⟩, ⟨"push_e_strength", true, some "1.0"⟩, ⟨"pull_e_strength", true, some "1.0"⟩, ⟨"pull_center_strength", true, some "1.0"⟩]⟩,
  ⟨"visualization/structure/draw.py", 92, "draw_digraph",
    [⟨"g", none⟩, ⟨"e_style", some "\"line\""⟩, ⟨"v_label", some "None"⟩, ⟨"v_size", some "1.0"⟩, ⟨"v_color", some "\"r\""⟩, ⟨"v_line_width", some "1.0"⟩, ⟨"e_color", some "\"gray\""⟩, ⟨"e_line_width", some "1.0"⟩, ⟨"font_size", some "1.0"⟩, ⟨"font_family", some "\"sans-serif\""⟩, ⟨"push_v_strength", some "1.0"⟩, ⟨"push_e_strength", some "1.0"⟩, ⟨"pull_e_strength", some "1.0"⟩, ⟨"pull_center_strength", some "1.0"⟩],
    [⟨"g", false, none⟩, ⟨"e_style", true, some "\"line\""⟩, ⟨"v_label", true, some "None"⟩, ⟨"v_size", true, some "1.0"⟩, ⟨"v_color", true, some "\"r\""⟩, ⟨"v_line_width", true, some "1.0"⟩, ⟨"e_color", true, some "\"gray\""⟩, ⟨"e_line_width", true, some "1.0"⟩, ⟨"font_size", true, some "1.0"⟩, ⟨"font_family", true, some "\"sans-serif\""⟩, ⟨"push_v_strength", true, some "1.0"⟩, ⟨"push_e_strength", true, some "1.0"⟩, ⟨"pull_e_strength", true, some "1.0"⟩, ⟨"pull_center_strength", true, some "1.0"⟩]⟩,
  ⟨"visualization/structure/draw.py", 157, "draw_bigraph",
    [⟨"g", none⟩, ⟨"e_style", some "\"line\""⟩, ⟨"u_label", some "None"⟩, ⟨"u_size", some "1.0"⟩, ⟨"u_color", some "\"m\""⟩, ⟨"u_line_width", some "1.0"⟩, ⟨"v_label", some "None"⟩, ⟨"v_size", some "1.0"⟩, ⟨"v_color", some "\"r\""⟩, ⟨"v_line_width", some "1.0"⟩, ⟨"e_color", some "\"gray\""⟩, ⟨"e_line_width", some "1.0"⟩, ⟨"u_font_size", some "1.0"⟩, ⟨"v_font_size", some "1.0"⟩, ⟨"font_family", some "\"sans-serif\""⟩, ⟨"push_u_strength", some "1.0"⟩, ⟨"push_v_strength", some "1.0"⟩, ⟨"push_e_strength", some "1.0"⟩, ⟨"pull_e_strength", some "1.0"⟩, ⟨"pull_u_center_strength", some "1.0"⟩, ⟨"pull_v_center_strength", some "1.0"⟩],
    [⟨"g", false, none⟩, ⟨"e_style", true, some "\"line\""⟩, ⟨"u_label", true, some "None"⟩, ⟨"u_size", true, some "1.0"⟩, ⟨"u_color", true, some "\"m\""⟩, ⟨"u_line_width", true, some "1.0"⟩, ⟨"v_label", true, some "None"⟩, ⟨"v_size", true, some "1.0"⟩, ⟨"v_color", true, some "\"r\""⟩, ⟨"v_line_width", true, some "1.0"⟩, ⟨"e_color", true, some "\"gray\""⟩, ⟨"e_line_width", true, some "1.0"⟩, ⟨"u_font_size", true, some "1.0"⟩, ⟨"v_font_size", true, some "1.0"⟩, ⟨"font_family", true, some "\"sans-serif\""⟩, ⟨"push_u_strength", true, some "1.0"⟩, ⟨"push_v_strength", true, some "1.0"⟩, ⟨"push_e_strength", true, some "1.0"⟩, ⟨"pull_e_strength", true, some "1.0"⟩, ⟨"pull_u_center_strength", true, some "1.0"⟩, ⟨"pull_v_center_strength", true, some "1.0"⟩]⟩,
  ⟨"visualization/structure/draw.py", 272, "draw_hypergraph",
    [⟨"hg", none⟩, ⟨"e_style", some "\"circle\""⟩, ⟨"v_label", some "None"⟩, ⟨"v_size", some "1.0"⟩, ⟨"v_color", some "\"r\""⟩, ⟨"v_line_width", some "1.0"⟩, ⟨"e_color", some "\"gray\""⟩, ⟨"e_fill_color", some "\"whitesmoke\""⟩, ⟨"e_line_width", some "1.0"⟩, ⟨"font_size", some "1.0"⟩, ⟨"font_family", some "\"sans-serif\""⟩, ⟨"push_v_strength", some "1.0"⟩, ⟨"push_e_strength", some "1.0"⟩, ⟨"pull_e_strength", some "1.0"⟩, ⟨"pull_center_strength", some "1.0"⟩],
    [⟨"hg", false, none⟩, ⟨"e_style", true, some "\"circle\""⟩, ⟨"v_label", true, some "None"⟩, ⟨"v_size", true, some "1.0"⟩, ⟨"v_color", true, some "\"r\""⟩, ⟨"v_line_width", true, some "1.0"⟩, ⟨"e_color", true, some "\"gray\""⟩, ⟨"e_fill_color", true, some "\"whitesmoke\""⟩, ⟨"e_line_width", true, some "1.0"⟩, ⟨"font_size", true, some "1.0"⟩, ⟨"font_family", true, some "\"sans-serif\""⟩, ⟨"push_v_strength", true, some "1.0"⟩, ⟨"push_e_strength", true, some "1.0"⟩, ⟨"pull_e_strength", true, some "1.0"⟩, ⟨"pull_center_strength", true, some "1.0"⟩]⟩]

/-- all of them (the files above) -/
def table : List Fn :=
  data_amazon ++
  data_base ++
  data_blogcatalog ++
  data_citeseer ++
  data_coauthorship ++
  data_cocitation ++
  data_cooking_200 ++
  data_cora ++
  data_dblp ++
  data_facebook ++
  data_flickr ++
  data_github ++
  data_gowalla ++
  data_imdb ++
  data_movielens ++
  data_news ++
  data_pubmed ++
  data_recipe ++
  data_tencent ++
  data_walmart ++
  data_white_house ++
  data_yelp ++
  datapipe_common ++
  datapipe_loader ++
  datapipe_normalize ++
  experiments_base ++
  experiments_graphs_graph ++
  experiments_hypergraphs_hypergraph ++
  experiments_recommender ++
  experiments_vertex_classification ++
  metrics___init__ ++
  metrics_base ++
  metrics_classification ++
  metrics_graphs_graph ++
  metrics_hypergraphs_hypergraph ++
  metrics_recommender ++
  metrics_retrieval ++
  models_graphs_bgnn ++
  models_graphs_gat ++
  models_graphs_gcn ++
  models_graphs_gin ++
  models_graphs_graphsage ++
  models_graphs_lightgcn ++
  models_graphs_ngcf ++
  models_hypergraphs_dhcf ++
  models_hypergraphs_hgnn ++
  models_hypergraphs_hgnnp ++
  models_hypergraphs_hnhn ++
  models_hypergraphs_hypergcn ++
  models_hypergraphs_unignn ++
  nn_convs_common ++
  nn_convs_graphs_gat_conv ++
  nn_convs_graphs_gcn_conv ++
  nn_convs_graphs_gin_conv ++
  nn_convs_graphs_graphsage_conv ++
  nn_convs_hypergraphs_dhcf_conv ++
  nn_convs_hypergraphs_hgnn_conv ++
  nn_convs_hypergraphs_hgnnp_conv ++
  nn_convs_hypergraphs_hnhn_conv ++
  nn_convs_hypergraphs_hypergcn_conv ++
  nn_convs_hypergraphs_unignn_conv ++
  nn_loss ++
  nn_regularization ++
  random__seed ++
  random_feature ++
  random_graphs_bipartite_graph ++
  random_graphs_directed_graph ++
  random_graphs_graph ++
  random_hypergraphs_hypergraph ++
  structure_base ++
  structure_graphs_bipartite_graph ++
  structure_graphs_directed_graph ++
  structure_graphs_graph ++
  structure_hypergraphs_hypergraph ++
  utils_dataset_wrapers ++
  utils_download ++
  utils_logging ++
  utils_sparse ++
  utils_structure ++
  visualization_feature_utils ++
  visualization_feature_visualization ++
  visualization_structure_draw

/-- the function of the table with this name in this file (the files above) -/
def find (file name : String) : Option Fn := table.find? fun f => f.file == file && f.name == name

/-- a constructor that hands its parameters on: the arguments of `super().__init__(…)`, positional and by keyword
(experiments/vertex_classification.py:39-49) -/
structure Hands where
  file : String
  cls : String
  pos : List String
  kw : List (String × String)

/-- experiments/vertex_classification.py:39-49 -/
def handsVertex : Hands :=
  ⟨"experiments/vertex_classification.py", "VertexClassificationTask",
    ["work_root", "data", "model_builder", "train_builder", "evaluator", "device"],
    [("structure_builder", "structure_builder"), ("study_name", "study_name"), ("overwrite", "overwrite")]⟩

/-- experiments/recommender.py:39-49 -/
def handsRec : Hands :=
  ⟨"experiments/recommender.py", "UserItemRecommenderTask",
    ["work_root", "data", "model_builder", "train_builder", "evaluator", "device"],
    [("structure_builder", "structure_builder"), ("study_name", "study_name"), ("overwrite", "overwrite")]⟩

/-- experiments/hypergraphs/hypergraph.py:39-49 -/
def handsHyper : Hands :=
  ⟨"experiments/hypergraphs/hypergraph.py", "HypergraphVertexClassificationTask",
    ["work_root", "data", "model_builder", "train_builder", "evaluator", "device"],
    [("structure_builder", "structure_builder"), ("study_name", "study_name"), ("overwrite", "overwrite")]⟩

/-- experiments/graphs/graph.py:37-46 -/
def handsGraph : Hands :=
  ⟨"experiments/graphs/graph.py", "GraphVertexClassificationTask",
    ["work_root", "data", "model_builder", "train_builder", "evaluator", "device"],
    [("study_name", "study_name"), ("overwrite", "overwrite")]⟩

/-- a default of the class below that is handed on is an argument above; it is a default all the same
(experiments/vertex_classification.py:39-49) -/
def flat : Arg (Arg V) → Arg V
  | .given a => a
  | .default t => .default t

/-- the value of a name; an unknown one is a `NameError` (experiments/vertex_classification.py:39-49) -/
def value {α : Type} (b : List (String × α)) (n : String) : Except Err α :=
  match b.lookup n with
  | some a => .ok a
  | none => .error .name

/-- `super().__init__(…)` of a constructor with the parameters `b`, for the parameters `ps` of the class above
(experiments/vertex_classification.py:39-49) -/
def handOn (h : Hands) (ps : List Param) (b : List (String × Arg V)) : Except Err (List (String × Arg V)) := do
  let pos ← h.pos.mapM (value b)
  let kw ← h.kw.mapM fun k => (value b k.2).map (k.1, ·)
  let b' ← bind ps pos kw
  return b'.map fun x => (x.1, flat x.2)

/-- the parameters of a function of the table (the files above) -/
def paramsOf (file name : String) : List Param := ((find file name).map (·.params)).getD []

/-- what `BaseTask.__init__` gets when a class is called (experiments/base.py:35-46, experiments/vertex_classification.py:27-50,
experiments/recommender.py:27-50) -/
def construct (chain : List Hands) (pos : List V) (kw : List (String × V)) : Except Err (List (String × Arg V)) :=
  match chain with
  | [] => bind (paramsOf "experiments/base.py" "BaseTask") pos kw
  | h :: rest => do
    let b ← bind (paramsOf h.file h.cls) pos kw
    up h rest b
where
  /-- from one class to the next above -/
  up (h : Hands) : List Hands → List (String × Arg V) → Except Err (List (String × Arg V))
    | [], b => handOn h (paramsOf "experiments/base.py" "BaseTask") b
    | h' :: rest, b => do up h' rest (← handOn h (paramsOf h'.file h'.cls) b)

/-- the classes of tasks, each with the ones it inherits from (experiments/vertex_classification.py:12, recommender.py:12,
experiments/graphs/graph.py:12, experiments/hypergraphs/hypergraph.py:12) -/
def chains : List (String × List Hands) :=
  [("BaseTask", []), ("VertexClassificationTask", [handsVertex]), ("UserItemRecommenderTask", [handsRec]),
   ("GraphVertexClassificationTask", [handsGraph, handsVertex]),
   ("HypergraphVertexClassificationTask", [handsHyper, handsVertex])]

end Sig
end DHG
