import Verif.Data

/-!
# The dataset classes (`dhg/data/*.py` other than `base.py`)

One table per class, as its constructor fills `self._content`.  All loaders of the tables are `load_from_pickle` without
keys or `partial(load_from_txt, dtype="int", sep=" ")`, all pipes are `to_tensor`, `partial(norm_ft, ord=1)`,
`to_long_tensor` and `to_bool_tensor`, every item has exactly one file and none has a `bk_url`.  What unpickling,
parsing and tensor arithmetic compute is a parameter (`Semantics`; see `Datapipe.lean` for texts and norms), what
happens to types is not.
-/

set_option linter.unusedSectionVars false
set_option autoImplicit false

namespace DHG
namespace Data
open Download

/-- the loaders of the tables (datapipe/loader.py:9, 39) -/
inductive LoaderName
  | pickle | txt
  deriving DecidableEq

/-- the pipes of the tables (datapipe/common.py:7, 40, 65, datapipe/normalize.py:5) -/
inductive PipeName
  | toTensor | normFt | toLong | toBool
  deriving DecidableEq

/-- a value of `self._content`: a number, or `{"upon": [{"filename": …, "md5": …}], "loader": …, "preprocess": …}`
(data/base.py:14-24, data/cora.py:32-41) -/
inductive Entry
  | num (n : Nat)
  | file (filename md5 : String) (loader : LoaderName) (pre : Option (List PipeName))
  deriving DecidableEq

/-- a dataset class: its name, the name it passes to `BaseData.__init__`, and `self._content` (data/cora.py:9, 31-66) -/
structure Table where
  cls : String
  name : String
  content : List (String × Entry)

/-- `dtype` of a tensor: `torch.float32`, `torch.int64`, `torch.bool` (datapipe/common.py:37, 62, 87) -/
inductive Kind
  | float | long | bool
  deriving DecidableEq

/-- the values handed out: the numbers of the tables, Python objects read from files, and tensors
(data/base.py:66-100) -/
inductive PyVal (O T : Type)
  | int (n : Nat)
  | obj (o : O)
  | tensor (k : Kind) (t : T)

/-- what the libraries compute: `pkl.load` and the parsing of a text file (`none` is Python's `None`), `torch.tensor`
with `todense` before it where needed, the conversions `.float()`, `.long()`, `.bool()`, and the normalised rows
(datapipe/loader.py:19, 60, datapipe/common.py:25-37, 56-62, 81-87, datapipe/normalize.py:28-39) -/
structure Semantics (O T : Type) where
  unpickle : Bytes → Except DErr (Option O)
  readTxt : Bytes → Except DErr (Option O)
  tensor : O → Except DErr T
  cast : Kind → T → T
  norm : T → Except DErr T

section
variable {O T : Type}

/-- the text or pickle as a value (datapipe/loader.py:18-21, 57-61) -/
def Semantics.parse (S : Semantics O T) (l : LoaderName) (c : Bytes) : Except DErr (Val (PyVal O T)) :=
  match l with
  | .pickle => (S.unpickle c).map fun o => o.map .obj
  | .txt => (S.readTxt c).map fun o => o.map .obj

/-- `load_from_pickle` and `load_from_txt` on one path; a list of paths and a missing file raise
(datapipe/loader.py:16-21, 53-61) -/
def loaderOf (S : Semantics O T) (l : LoaderName) (a : LArg) (fs : Path → Option Bytes) :
    Except DErr (Val (PyVal O T)) :=
  match a with
  | .many _ => .error .user
  | .one p =>
    match fs p with
    | none => .error .user
    | some c => S.parse l c

/-- `to_tensor`, `to_long_tensor`, `to_bool_tensor`: `torch.tensor(X)` and a conversion (datapipe/common.py:25-37,
56-62, 81-87).  `torch.tensor(None)` raises.  Simplified: applied to a number of the tables they raise here; the tables
apply them to contents of files only. -/
def toKind (S : Semantics O T) (k : Kind) : Pipe (PyVal O T)
  | some (.obj o) => (S.tensor o).map fun t => some (.tensor k (S.cast k t))
  | some (.tensor _ t) => .ok (some (.tensor k (S.cast k t)))
  | _ => .error .user

/-- the pipes.  `norm_ft` calls `X.dim()`, which only tensors have, and `torch.linalg.norm`, which refuses integers and
booleans (datapipe/normalize.py:28-39) -/
def pipeOf (S : Semantics O T) : PipeName → Pipe (PyVal O T)
  | .toTensor, x => toKind S .float x
  | .toLong, x => toKind S .long x
  | .toBool, x => toKind S .bool x
  | .normFt, some (.tensor .float t) => (S.norm t).map fun t => some (.tensor .float t)
  | .normFt, _ => .error .user

/-- an entry as an item of `BaseData` (data/base.py:53-64) -/
def Entry.item (S : Semantics O T) : Entry → Item (PyVal O T)
  | .num n => .plain (some (.int n))
  | .file f m l pre => .cfg [⟨f, m, none⟩] (loaderOf S l) (pre.map fun ps => ps.map (pipeOf S))

/-- where the files are: below `data_root`, or below `DATASETS_ROOT` if it is `None` (data/base.py:31-34) -/
def datasetRoot (E : Env) (dataRoot : Option Path) (name : String) : Path :=
  match dataRoot with
  | none => defaultRoot E name
  | some r => r ++ [name]

/-- the constructor of a dataset class (data/cora.py:30-66, data/base.py:28-38) -/
def Table.new (E : Env) (S : Semantics O T) (dataRoot : Option Path) (t : Table) : Dataset (PyVal O T) where
  name := t.name
  root := datasetRoot E dataRoot t.name
  items := t.content.map fun p => (p.1, p.2.item S)

/-- `content` (data/base.py:47-51) -/
def Dataset.contentKeys {V : Type} (D : Dataset V) : List String := D.items.map Prod.fst

/-- `needs_to_load` (data/base.py:53-64) -/
def Dataset.needsToLoad {V : Type} (D : Dataset V) (key : String) : Except DErr Bool :=
  if key ∈ D.contentKeys then
    match D.item? key with
    | some (.cfg _ _ _) => .ok true
    | _ => .ok false
  else .error .assertion

end

/-! ## The tables -/

/-- `AmazonBook` (data/amazon.py:28-41) -/
def tAmazonBook : Table where
  cls := "AmazonBook"
  name := "amazon_book"
  content := [
    ("num_users", .num 52643),
    ("num_items", .num 91599),
    ("num_interactions", .num 2984108),
    ("train_adj_list", .file "train.txt" "c916ecac04ca72300a016228258b41ed" .txt none),
    ("test_adj_list", .file "test.txt" "30f8ccfea18d25007ba9fb9aba4e174d" .txt none)]

/-- `BlogCatalog` (data/blogcatalog.py:33-53) -/
def tBlogCatalog : Table where
  cls := "BlogCatalog"
  name := "BlogCatalog"
  content := [
    ("num_classes", .num 6),
    ("num_vertices", .num 5196),
    ("num_edges", .num 171743),
    ("dim_features", .num 8189),
    ("features", .file "features.pkl" "ecdd26c63f483c4d919a156f9c8e92fc" .pickle (some [.toTensor])),
    ("edge_list", .file "edge_list.pkl" "03ffbc8c9a4d9abeab0f127c717888f0" .pickle none),
    ("labels", .file "labels.pkl" "246e7096dd834a631c33fe0c7afb89b4" .pickle (some [.toLong]))]

/-- `Citeseer` (data/citeseer.py:29-64) -/
def tCiteseer : Table where
  cls := "Citeseer"
  name := "citeseer"
  content := [
    ("num_classes", .num 6),
    ("num_vertices", .num 3327),
    ("num_edges", .num 9464),
    ("dim_features", .num 3703),
    ("features", .file "features.pkl" "7458c683e584a0c5ce1ab7af763777c6" .pickle (some [.toTensor, .normFt])),
    ("edge_list", .file "edge_list.pkl" "1948e9f712bc16ba8ef48a3e79fc2246" .pickle none),
    ("labels", .file "labels.pkl" "f5bcf7815e463af4f88d40195f0d378c" .pickle (some [.toLong])),
    ("train_mask", .file "train_mask.pkl" "9aae62b41403b976c4cc048685c966e6" .pickle (some [.toBool])),
    ("val_mask", .file "val_mask.pkl" "4527d7dc1e2604cdaa9e18916f32714b" .pickle (some [.toBool])),
    ("test_mask", .file "test_mask.pkl" "af49e6f6f53c73b7d3a62d6f9b2a3871" .pickle (some [.toBool]))]

/-- `CiteseerBiGraph` (data/citeseer.py:91-118) -/
def tCiteseerBiGraph : Table where
  cls := "CiteseerBiGraph"
  name := "citeseer_bigraph"
  content := [
    ("num_u_classes", .num 6),
    ("num_u_vertices", .num 1237),
    ("num_v_vertices", .num 742),
    ("num_edges", .num 1665),
    ("dim_u_features", .num 3703),
    ("dim_v_features", .num 3703),
    ("u_features", .file "u_features.pkl" "d8c1ccd6026cbb1f05cc3c534b239e00" .pickle (some [.toTensor, .normFt])),
    ("v_features", .file "v_features.pkl" "7ca1d16ad557945f9b66ef6ac40c0210" .pickle (some [.toTensor, .normFt])),
    ("edge_list", .file "edge_list.pkl" "2a632085fb8f691af6399fbb71dc1f67" .pickle none),
    ("u_labels", .file "u_labels.pkl" "b4d0034c29f6f5b6da17f3037c2af605" .pickle (some [.toLong]))]

/-- `CoauthorshipCora` (data/coauthorship.py:30-65) -/
def tCoauthorshipCora : Table where
  cls := "CoauthorshipCora"
  name := "coauthorship_cora"
  content := [
    ("num_classes", .num 7),
    ("num_vertices", .num 2708),
    ("num_edges", .num 1072),
    ("dim_features", .num 1433),
    ("features", .file "features.pkl" "14257c0e24b4eb741b469a351e524785" .pickle (some [.toTensor, .normFt])),
    ("edge_list", .file "edge_list.pkl" "a17ff337f1b9099f5a9d4d670674e146" .pickle none),
    ("labels", .file "labels.pkl" "c8d11c452e0be69f79a47dd839279117" .pickle (some [.toLong])),
    ("train_mask", .file "train_mask.pkl" "111db6c6f986be2908378df7bdca7a9b" .pickle (some [.toBool])),
    ("val_mask", .file "val_mask.pkl" "ffab1055193ffb2fe74822bb575d332a" .pickle (some [.toBool])),
    ("test_mask", .file "test_mask.pkl" "ffab1055193ffb2fe74822bb575d332a" .pickle (some [.toBool]))]

/-- `CoauthorshipDBLP` (data/coauthorship.py:89-124) -/
def tCoauthorshipDBLP : Table where
  cls := "CoauthorshipDBLP"
  name := "coauthorship_dblp"
  content := [
    ("num_classes", .num 6),
    ("num_vertices", .num 41302),
    ("num_edges", .num 22363),
    ("dim_features", .num 1425),
    ("features", .file "features.pkl" "b78fd31b2586d1e19a40b3f6cd9cc2e7" .pickle (some [.toTensor, .normFt])),
    ("edge_list", .file "edge_list.pkl" "c6bf5f9f3b9683bcc9b7bcc9eb8707d8" .pickle none),
    ("labels", .file "labels.pkl" "2e7a792ea018028d582af8f02f2058ca" .pickle (some [.toLong])),
    ("train_mask", .file "train_mask.pkl" "a842b795c7cac4c2f98a56cf599bc1de" .pickle (some [.toBool])),
    ("val_mask", .file "val_mask.pkl" "2ec4b7df7c5e6b355067a22c391ad578" .pickle (some [.toBool])),
    ("test_mask", .file "test_mask.pkl" "2ec4b7df7c5e6b355067a22c391ad578" .pickle (some [.toBool]))]

/-- `CocitationCora` (data/cocitation.py:31-66) -/
def tCocitationCora : Table where
  cls := "CocitationCora"
  name := "cocitation_cora"
  content := [
    ("num_classes", .num 7),
    ("num_vertices", .num 2708),
    ("num_edges", .num 1579),
    ("dim_features", .num 1433),
    ("features", .file "features.pkl" "14257c0e24b4eb741b469a351e524785" .pickle (some [.toTensor, .normFt])),
    ("edge_list", .file "edge_list.pkl" "e43d1321880c8ecb2260d8fb7effd9ea" .pickle none),
    ("labels", .file "labels.pkl" "c8d11c452e0be69f79a47dd839279117" .pickle (some [.toLong])),
    ("train_mask", .file "train_mask.pkl" "111db6c6f986be2908378df7bdca7a9b" .pickle (some [.toBool])),
    ("val_mask", .file "val_mask.pkl" "ffab1055193ffb2fe74822bb575d332a" .pickle (some [.toBool])),
    ("test_mask", .file "test_mask.pkl" "ffab1055193ffb2fe74822bb575d332a" .pickle (some [.toBool]))]

/-- `CocitationCiteseer` (data/cocitation.py:91-126) -/
def tCocitationCiteseer : Table where
  cls := "CocitationCiteseer"
  name := "cocitation_citeseer"
  content := [
    ("num_classes", .num 6),
    ("num_vertices", .num 3312),
    ("num_edges", .num 1079),
    ("dim_features", .num 3703),
    ("features", .file "features.pkl" "1ee0dc89e0d5f5ac9187b55a407683e8" .pickle (some [.toTensor, .normFt])),
    ("edge_list", .file "edge_list.pkl" "6687b2e96159c534a424253f536b49ae" .pickle none),
    ("labels", .file "labels.pkl" "71069f78e83fa85dd6a4b9b6570447c2" .pickle (some [.toLong])),
    ("train_mask", .file "train_mask.pkl" "3b831318fc3d3e588bead5ba469fe38f" .pickle (some [.toBool])),
    ("val_mask", .file "val_mask.pkl" "c22eb5b7493908042c7e039c8bb5a82e" .pickle (some [.toBool])),
    ("test_mask", .file "test_mask.pkl" "c22eb5b7493908042c7e039c8bb5a82e" .pickle (some [.toBool]))]

/-- `CocitationPubmed` (data/cocitation.py:151-186) -/
def tCocitationPubmed : Table where
  cls := "CocitationPubmed"
  name := "cocitation_pubmed"
  content := [
    ("num_classes", .num 3),
    ("num_vertices", .num 19717),
    ("num_edges", .num 7963),
    ("dim_features", .num 500),
    ("features", .file "features.pkl" "f89502c432ca451156a8235c5efc034e" .pickle (some [.toTensor, .normFt])),
    ("edge_list", .file "edge_list.pkl" "c5fbedf63e5be527f200e8c4e0391b00" .pickle none),
    ("labels", .file "labels.pkl" "c039f778409a15f9b2ceefacad9c2202" .pickle (some [.toLong])),
    ("train_mask", .file "train_mask.pkl" "81b422937f3adccd89a334d7093b67d7" .pickle (some [.toBool])),
    ("val_mask", .file "val_mask.pkl" "10717940ddbfa3e4f6c0b148bb394f79" .pickle (some [.toBool])),
    ("test_mask", .file "test_mask.pkl" "10717940ddbfa3e4f6c0b148bb394f79" .pickle (some [.toBool]))]

/-- `Cooking200` (data/cooking_200.py:33-87) -/
def tCooking200 : Table where
  cls := "Cooking200"
  name := "cooking_200"
  content := [
    ("num_classes", .num 20),
    ("num_vertices", .num 7403),
    ("num_edges", .num 2755),
    ("edge_list", .file "edge_list.pkl" "2cd32e13dd4e33576c43936542975220" .pickle none),
    ("labels", .file "labels.pkl" "f1f3c0399c9c28547088f44e0bfd5c81" .pickle (some [.toLong])),
    ("train_mask", .file "train_mask.pkl" "66ea36bae024aaaed289e1998fe894bd" .pickle (some [.toBool])),
    ("val_mask", .file "val_mask.pkl" "6c0d3d8b752e3955c64788cc65dcd018" .pickle (some [.toBool])),
    ("test_mask", .file "test_mask.pkl" "0e1564904551ba493e1f8a09d103461e" .pickle (some [.toBool]))]

/-- `Cora` (data/cora.py:31-66) -/
def tCora : Table where
  cls := "Cora"
  name := "cora"
  content := [
    ("num_classes", .num 7),
    ("num_vertices", .num 2708),
    ("num_edges", .num 10858),
    ("dim_features", .num 1433),
    ("features", .file "features.pkl" "05b45e9c38cc95f4fc44b3668cc9ddc9" .pickle (some [.toTensor, .normFt])),
    ("edge_list", .file "edge_list.pkl" "f488389c1edd0d898ce273fbd27822b3" .pickle none),
    ("labels", .file "labels.pkl" "e506014762052c6a36cb583c28bdae1d" .pickle (some [.toLong])),
    ("train_mask", .file "train_mask.pkl" "a11357a40e1f0b5cce728d1a961b8e13" .pickle (some [.toBool])),
    ("val_mask", .file "val_mask.pkl" "355544da566452601bcfa74d30539a71" .pickle (some [.toBool])),
    ("test_mask", .file "test_mask.pkl" "bbfc87d661560f55f6946f8cb9d602b9" .pickle (some [.toBool]))]

/-- `CoraBiGraph` (data/cora.py:93-120) -/
def tCoraBiGraph : Table where
  cls := "CoraBiGraph"
  name := "cora_bigraph"
  content := [
    ("num_u_classes", .num 7),
    ("num_u_vertices", .num 1312),
    ("num_v_vertices", .num 789),
    ("num_edges", .num 2314),
    ("dim_u_features", .num 1433),
    ("dim_v_features", .num 1433),
    ("u_features", .file "u_features.pkl" "84f0ecee4233ca70d40d36f457470032" .pickle (some [.toTensor, .normFt])),
    ("v_features", .file "v_features.pkl" "de65cd478ea05333c26184bc8b2cb468" .pickle (some [.toTensor, .normFt])),
    ("edge_list", .file "edge_list.pkl" "e7b82c4a8305e1488beac1b788ad46e3" .pickle none),
    ("u_labels", .file "u_labels.pkl" "65dff86f7920cdab61790d48a39f2e5b" .pickle (some [.toLong]))]

/-- `DBLP8k` (data/dblp.py:23-31) -/
def tDBLP8k : Table where
  cls := "DBLP8k"
  name := "dblp_8k"
  content := [
    ("num_vertices", .num 8657),
    ("num_edges", .num 2603),
    ("edge_list", .file "edge_list.pkl" "46b16106daae8eebfd39c2fc43ecbf0b" .pickle none)]

/-- `DBLP4k` (data/dblp.py:64-106) -/
def tDBLP4k : Table where
  cls := "DBLP4k"
  name := "dblp_4k"
  content := [
    ("num_classes", .num 4),
    ("num_vertices", .num 4057),
    ("num_paper_edges", .num 14328),
    ("num_term_edges", .num 7723),
    ("num_conf_edges", .num 20),
    ("dim_features", .num 334),
    ("features", .file "features.pkl" "7f8e6c3219026c284342d45c01e16406" .pickle (some [.toTensor, .normFt])),
    ("labels", .file "labels.pkl" "6ffe5ab8c5670d8b5df595b5c4c63184" .pickle (some [.toLong])),
    ("edge_by_paper", .file "edge_by_paper.pkl" "e473eddeb4692f732bc1e47ae94d62c2" .pickle none),
    ("edge_by_term", .file "edge_by_term.pkl" "1ca7cfbf46a7f5fc743818c65392a0ed" .pickle none),
    ("edge_by_conf", .file "edge_by_conf.pkl" "890d683b7d8f943ac6d7e87043e0355e" .pickle none),
    ("paper_author_dict", .file "paper_author_dict.pkl" "eb2922e010a78961b5b66e77f9bdf950" .pickle none),
    ("term_paper_dict", .file "term_paper_dict.pkl" "1d71f988b52b0e1da9d12f1d3fe24350" .pickle none),
    ("conf_paper_dict", .file "conf_paper_dict.pkl" "cbf87d64dce4ef40d2ab8406e1ee10e1" .pickle none)]

/-- `Facebook` (data/facebook.py:33-53) -/
def tFacebook : Table where
  cls := "Facebook"
  name := "facebook"
  content := [
    ("num_classes", .num 4),
    ("num_vertices", .num 22470),
    ("num_edges", .num 85501),
    ("dim_features", .num 8189),
    ("features", .file "features.pkl" "046eec1b67fb5bf504eaad75e98af141" .pickle (some [.toTensor])),
    ("edge_list", .file "edge_list.pkl" "98c6551d020c7741554cae5eab8336ef" .pickle none),
    ("labels", .file "labels.pkl" "ae0c116274cedc00522df66bd921affc" .pickle (some [.toLong]))]

/-- `Flickr` (data/flickr.py:32-52) -/
def tFlickr : Table where
  cls := "Flickr"
  name := "Flickr"
  content := [
    ("num_classes", .num 9),
    ("num_vertices", .num 7575),
    ("num_edges", .num 239738),
    ("dim_features", .num 12047),
    ("features", .file "features.pkl" "8e889c8532a91ddcb29d6a9c377b5528" .pickle (some [.toTensor])),
    ("edge_list", .file "edge_list.pkl" "ea7412a30539fbc95f76ee3712a07017" .pickle none),
    ("labels", .file "labels.pkl" "9603c29e31b863a34fc707b606c02880" .pickle (some [.toLong]))]

/-- `Github` (data/github.py:34-54) -/
def tGithub : Table where
  cls := "Github"
  name := "github"
  content := [
    ("num_classes", .num 2),
    ("num_vertices", .num 37700),
    ("num_edges", .num 144501),
    ("dim_features", .num 4005),
    ("features", .file "features.pkl" "f097384b61876a22cf048d28a2193c5a" .pickle (some [.toTensor])),
    ("edge_list", .file "edge_list.pkl" "57012ac55fe125d8865a693b09f794b3" .pickle none),
    ("labels", .file "labels.pkl" "9b1282a2a8a23c9f3b480136055c8b6b" .pickle (some [.toLong]))]

/-- `Gowalla` (data/gowalla.py:28-51) -/
def tGowalla : Table where
  cls := "Gowalla"
  name := "gowalla"
  content := [
    ("num_users", .num 29858),
    ("num_items", .num 40981),
    ("num_interactions", .num 1027370),
    ("train_adj_list", .file "train.txt" "5eec1eb2edb8dd648377d348b8e136cf" .txt none),
    ("test_adj_list", .file "test.txt" "c04e2c4bcd2389f53ed8281816166149" .txt none)]

/-- `IMDB4k` (data/imdb.py:35-60) -/
def tIMDB4k : Table where
  cls := "IMDB4k"
  name := "imdb_4k"
  content := [
    ("num_classes", .num 3),
    ("num_vertices", .num 4278),
    ("num_director_edges", .num 2081),
    ("num_actor_edges", .num 5257),
    ("dim_features", .num 3066),
    ("features", .file "features.pkl" "b9cca982d3d5066ddb2013951939c070" .pickle (some [.toTensor, .normFt])),
    ("labels", .file "labels.pkl" "a45e5af53d5475ac87f5d8aa779b3a20" .pickle (some [.toLong])),
    ("edge_by_director", .file "edge_by_director.pkl" "671b7c2010e8604f037523738323cd78" .pickle none),
    ("edge_by_actor", .file "edge_by_actor.pkl" "dff7557861445de77b05d6215746c9f1" .pickle none)]

/-- `MovieLens1M` (data/movielens.py:28-51) -/
def tMovieLens1M : Table where
  cls := "MovieLens1M"
  name := "movielens_1m"
  content := [
    ("num_users", .num 6022),
    ("num_items", .num 3043),
    ("num_interactions", .num 995154),
    ("train_adj_list", .file "train.txt" "db93f671bc5d1b1544ce4c29664f6778" .txt none),
    ("test_adj_list", .file "test.txt" "5e55bcbb6372ad4c6fafe79989e2f956" .txt none)]

/-- `News20` (data/news.py:29-49) -/
def tNews20 : Table where
  cls := "News20"
  name := "20news"
  content := [
    ("num_classes", .num 4),
    ("num_vertices", .num 16342),
    ("num_edges", .num 100),
    ("dim_features", .num 100),
    ("features", .file "features.pkl" "3ccc2220867a13e7477791e9bb732d47" .pickle (some [.toTensor])),
    ("edge_list", .file "edge_list.pkl" "b49d5486e08da01f2cbe3419489597ff" .pickle none),
    ("labels", .file "labels.pkl" "66d15dee0ed42ab88fa203c83af02d80" .pickle (some [.toLong]))]

/-- `Pubmed` (data/pubmed.py:29-64) -/
def tPubmed : Table where
  cls := "Pubmed"
  name := "pubmed"
  content := [
    ("num_classes", .num 3),
    ("num_vertices", .num 19717),
    ("num_edges", .num 88676),
    ("dim_features", .num 500),
    ("features", .file "features.pkl" "b8fe6c0ce974d031c9c70266f4ccff44" .pickle (some [.toTensor, .normFt])),
    ("edge_list", .file "edge_list.pkl" "9563ff5fc66e56ab53ccb25685e6d540" .pickle none),
    ("labels", .file "labels.pkl" "6132b80c5cea4e73f45920779175e3f8" .pickle (some [.toLong])),
    ("train_mask", .file "train_mask.pkl" "69d4ef4d7cdb53ff4b3b48ce394363b0" .pickle (some [.toBool])),
    ("val_mask", .file "val_mask.pkl" "5a65a2ad27165dd0cea2675592ee414e" .pickle (some [.toBool])),
    ("test_mask", .file "test_mask.pkl" "4bbf50754d7fdae2b5c6c12d85ccc3a5" .pickle (some [.toBool]))]

/-- `PubmedBiGraph` (data/pubmed.py:91-118) -/
def tPubmedBiGraph : Table where
  cls := "PubmedBiGraph"
  name := "pubmed_bigraph"
  content := [
    ("num_u_classes", .num 3),
    ("num_u_vertices", .num 13424),
    ("num_v_vertices", .num 3435),
    ("num_edges", .num 18782),
    ("dim_u_features", .num 400),
    ("dim_v_features", .num 500),
    ("u_features", .file "u_features.pkl" "0ff95930275f4ce30306defc3cdf488a" .pickle (some [.toTensor, .normFt])),
    ("v_features", .file "v_features.pkl" "93760475e0cdd1fa9ce4e97e669d2c7e" .pickle (some [.toTensor, .normFt])),
    ("edge_list", .file "edge_list.pkl" "8bf3949ae0df62eb8b032e0e047def32" .pickle none),
    ("u_labels", .file "u_labels.pkl" "ce286f6dd401679461913aad64f0f577" .pickle (some [.toLong]))]

/-- `Recipe100k` (data/recipe.py:30-50) -/
def tRecipe100k : Table where
  cls := "Recipe100k"
  name := "recipe-100k-v2"
  content := [
    ("num_classes", .num 8),
    ("num_vertices", .num 101585),
    ("num_edges", .num 12387),
    ("dim_features", .num 2254),
    ("features", .file "features.pkl" "4fdd76cd4108fd07bdd62368067c1eaf" .pickle (some [.toTensor])),
    ("edge_list", .file "edge_list.pkl" "3dc1d8fe7a0f91b5c56057500bda9021" .pickle none),
    ("labels", .file "labels.pkl" "bd8a3bcaef27a58c6d1d5def255c5065" .pickle (some [.toLong]))]

/-- `Recipe200k` (data/recipe.py:74-94) -/
def tRecipe200k : Table where
  cls := "Recipe200k"
  name := "recipe-200k-v2"
  content := [
    ("num_classes", .num 8),
    ("num_vertices", .num 240094),
    ("num_edges", .num 18129),
    ("dim_features", .num 3200),
    ("features", .file "features.pkl" "a5df55a3e9591d7389f6ea5f09a483f4" .pickle (some [.toTensor])),
    ("edge_list", .file "edge_list.pkl" "163ad784e35e56650fc22658d3e88767" .pickle none),
    ("labels", .file "labels.pkl" "05bee03f1c5383f0cde5ea879be090af" .pickle (some [.toLong]))]

/-- `TencentBiGraph` (data/tencent.py:38-65) -/
def tTencentBiGraph : Table where
  cls := "TencentBiGraph"
  name := "tencent_bigraph"
  content := [
    ("num_u_classes", .num 2),
    ("num_u_vertices", .num 619030),
    ("num_v_vertices", .num 90044),
    ("num_edges", .num 991713),
    ("dim_u_features", .num 8),
    ("dim_v_features", .num 16),
    ("u_features", .file "u_features.pkl" "f6984204d7c9953894678c16670fc7a6" .pickle (some [.toTensor, .normFt])),
    ("v_features", .file "v_features.pkl" "5344dadb0b7274c26fc60ddc333e2939" .pickle (some [.toTensor, .normFt])),
    ("edge_list", .file "edge_list.pkl" "f5f8a8478133e1c25c01aa09b7eb96a2" .pickle none),
    ("u_labels", .file "u_labels.pkl" "1e4a226acb8b50589ed59623069d3887" .pickle (some [.toLong]))]

/-- `Tencent2k` (data/tencent.py:92-127) -/
def tTencent2k : Table where
  cls := "Tencent2k"
  name := "tencent_2k"
  content := [
    ("num_classes", .num 2),
    ("num_vertices", .num 2146),
    ("num_edges", .num 6378),
    ("dim_features", .num 8),
    ("features", .file "features.pkl" "d3ff915a640b7e87e21849e3c400cc76" .pickle (some [.toTensor, .normFt])),
    ("edge_list", .file "edge_list.pkl" "c9dc2fa5092087173369385885ffbed4" .pickle none),
    ("labels", .file "labels.pkl" "899ce99d0066d74c737cc19301f010f6" .pickle (some [.toLong])),
    ("train_mask", .file "train_mask.pkl" "2888a1fcc5162767d17a92b798a809e8" .pickle (some [.toBool])),
    ("val_mask", .file "val_mask.pkl" "60deaa9e1df986c44059e795feaa2351" .pickle (some [.toBool])),
    ("test_mask", .file "test_mask.pkl" "3f0325139633d3c258fb52d634a4f510" .pickle (some [.toBool]))]

/-- `WalmartTrips` (data/walmart.py:28-42) -/
def tWalmartTrips : Table where
  cls := "WalmartTrips"
  name := "walmart_trips"
  content := [
    ("num_classes", .num 12),
    ("num_vertices", .num 88860),
    ("num_edges", .num 69906),
    ("edge_list", .file "edge_list.pkl" "0827c278282601b9c584f80c3b686a72" .pickle none),
    ("labels", .file "labels.pkl" "981684b84f9e7917e86b5aff08d0c594" .pickle (some [.toLong]))]

/-- `HouseCommittees` (data/white_house.py:28-42) -/
def tHouseCommittees : Table where
  cls := "HouseCommittees"
  name := "house_committees"
  content := [
    ("num_classes", .num 3),
    ("num_vertices", .num 1290),
    ("num_edges", .num 341),
    ("edge_list", .file "edge_list.pkl" "8f054ddfc7ba4e1e80010418884c77f7" .pickle none),
    ("labels", .file "labels.pkl" "9084625ef807e61133bdafdf3d8c8c93" .pickle (some [.toLong]))]

/-- `Yelp2018` (data/yelp.py:28-41) -/
def tYelp2018 : Table where
  cls := "Yelp2018"
  name := "yelp_2018"
  content := [
    ("num_users", .num 31668),
    ("num_items", .num 38048),
    ("num_interactions", .num 1561406),
    ("train_adj_list", .file "train.txt" "1b8b5d22a227e01d6de002c53d32b4c4" .txt none),
    ("test_adj_list", .file "test.txt" "0d57d7399862c32152b045ec5d2698e7" .txt none)]

/-- `YelpRestaurant` (data/yelp.py:71-101) -/
def tYelpRestaurant : Table where
  cls := "YelpRestaurant"
  name := "yelp_restaurant"
  content := [
    ("num_classes", .num 11),
    ("num_vertices", .num 50758),
    ("num_edges", .num 679302),
    ("dim_features", .num 1862),
    ("features", .file "features.pkl" "cedc4443884477c2e626025411c44cd7" .pickle (some [.toTensor])),
    ("edge_list", .file "edge_list.pkl" "4b26eecaa22305dd10edcd6372eb49da" .pickle none),
    ("labels", .file "labels.pkl" "1cdc1ed9fb1f57b2accaa42db214d4ef" .pickle (some [.toLong])),
    ("state", .file "state.pkl" "eef3b835fad37409f29ad36539296b57" .pickle (some [.toLong])),
    ("city", .file "city.pkl" "8302b167262b23067698e865cacd0b17" .pickle (some [.toLong]))]

/-- `Yelp3k` (data/yelp.py:126-146) -/
def tYelp3k : Table where
  cls := "Yelp3k"
  name := "yelp_3k"
  content := [
    ("num_classes", .num 6),
    ("num_vertices", .num 3855),
    ("num_edges", .num 24137),
    ("dim_features", .num 1862),
    ("features", .file "features.pkl" "b107876d2e9ba5b0f7f67175e36bfdf4" .pickle (some [.toTensor])),
    ("edge_list", .file "edge_list.pkl" "322cfd002c0f557cf7bc4b9b2654b987" .pickle none),
    ("labels", .file "labels.pkl" "16ead8bcbb8a3621202c88f64c8cbc07" .pickle (some [.toLong]))]

/-- all dataset classes (data/__init__.py:2-22) -/
def catalogue : List Table :=
  [tAmazonBook, tBlogCatalog, tCiteseer, tCiteseerBiGraph, tCoauthorshipCora, tCoauthorshipDBLP,
   tCocitationCora, tCocitationCiteseer, tCocitationPubmed, tCooking200, tCora, tCoraBiGraph,
   tDBLP8k, tDBLP4k, tFacebook, tFlickr, tGithub, tGowalla,
   tIMDB4k, tMovieLens1M, tNews20, tPubmed, tPubmedBiGraph, tRecipe100k,
   tRecipe200k, tTencentBiGraph, tTencent2k, tWalmartTrips, tHouseCommittees, tYelp2018,
   tYelpRestaurant, tYelp3k]

end Data
end DHG
