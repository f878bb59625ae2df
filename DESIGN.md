# Formal model of DeepHypergraph (dhg) in Lean 4

The Lean project is in `lean/`.  The properties are in `properties.jsonl`, the status of each
one in `MANIFEST.json`, the tests of the theorems against wrong programs in
`seeded/LOG.jsonl`.  /repo is read as text; nothing of it is run.

Contents: 1 how the code is modelled; 2 trusted base; 3 plan per property; 4 where the code
disagrees with its documentation; 5 axioms of each theorem.

## 1. How the code is modelled

### 1.1 Conventions

* **Numbers.**  Weights and features live in an arbitrary linearly ordered field `K`
  (`[Field K] [LinearOrder K] [IsStrictOrderedRing K]`), or in `ℝ` where the code calls `exp`, `tanh`,
  `log` or norms.  `x ** -0.5` and `exp` of matrix entries come from the class `PyReal`
  (`Sparse.lean`), whose laws are proved for `ℝ`.  Floating point rounding is not modelled.
* **NaN and infinity.**  `inf` that the code replaces by 0 at once is written as that 0
  (`0⁻¹ = 0`).  Everywhere else NaN is visible: the error `Err.nan`, or `none` in `Option K`.
* **Exceptions** are values: `Except Err α`, one constructor per Python exception class that the
  modelled code can raise.
* **Mutating methods** are functions `σ → Except Err α × σ` (`PyM σ α`), so the state left behind
  by a call that raises is part of the model.
* **Python dicts** are association lists in insertion order (`Dict`); updates keep the position,
  deletions remove it.
* **Vertex ids** in the edge interfaces are `Int`, because the code accepts negative ids.
* **torch sparse tensors** are `Sp K`: a shape and a list of `((i,j),x)`.  `coalesce` (sort by index,
  add duplicates) is concrete because the order of `A._indices()` is observable through `e_src`,
  `e_dst`, `e_weight`.  The constructor rejects negative and out-of-range indices, as torch does.
* **Caches** (`self.cache`, `self.group_cache`) are part of the state.  A read looks up its key and
  stores what it computed, as the code does.  That reads are fresh is therefore a theorem about
  histories and not an assumption.
* **Aliasing** (live dictionaries handed out by `state_dict`, `deepcopy` in `from_state_dict`) is modelled
  with an explicit heap in `Heap.lean`; lists of hyperedges that the caller keeps, and lists handed out by
  `e`, in `ArgLists.lean`.  Elsewhere an object is a value.
* **Devices** are modelled on their own in `Device.lean`; the other modules leave them out.
* **Randomness** is an explicit stream of draws, quantified universally.  Loops that need not end
  take a number of rounds (`fuel`) and answer `none` when it is used up; theorems say what holds of
  every answer, and where the code does end for almost all streams, that some number of rounds is
  enough for every stream in which the needed draws occur.
* **Iteration order of Python sets** is a parameter (`ord`), assumed to be a permutation.
* **Network, file system, clock, terminal** are explicit states with outcomes quantified universally.
* **External components** (optimizers, optuna samplers, torch dropout and batch normalisation, t-SNE,
  PCA, convex hulls, MD5, user supplied models and losses) are arbitrary functions.

### 1.2 Which file renders which part of /repo/dhg

Every model definition carries a comment with the file and the lines it renders and the
simplifications made.  Definitions that render a Python or torch primitive cite a place where
the primitive is used.

| /repo/dhg | lean/Verif |
|---|---|
| Python statements, dicts, the cache idiom | `Py.lean`, `PyOn.lean` |
| torch sparse tensors | `Sparse.lean` |
| `random` module | `Rand.lean` |
| `structure/base.py` 28-335, `structure/graphs/graph.py` | `BaseGraph.lean`, `Graph.lean`, `GraphApi.lean` |
| `structure/graphs/directed_graph.py` | `Ordered.lean`, `DiGraph.lean` |
| `structure/graphs/bipartite_graph.py` | `Ordered.lean`, `BiGraph.lean` |
| `structure/base.py` 349-1223, `structure/hypergraphs/hypergraph.py` | `Hypergraph.lean`, `HyperApi.lean` |
| `structure/base.py` 351-1010, the directed hyperedges of `BaseHypergraph` | `DirHyper.lean` |
| conversions between structures (in the four class files) | `Convert.lean` |
| `state_dict`, `clone`, `save`, `load`, `load_structure` with sharing | `Heap.lean` |
| `_format_e_list` writing to its argument; calls with lists the caller keeps or got from `e` | `ArgLists.lean` |
| `to`, device handling in all structure methods | `Device.lean` |
| `utils/structure.py`, `dataset_split.py`, `dataset_wrapers.py`, `sparse.py` | `Utils.lean` |
| `utils/math.py` | `UtilsMath.lean` |
| `utils/download.py` | `Download.lean` |
| `utils/logging.py` | `StdLog.lean` |
| `metrics/retrieval.py`, `recommender.py`, `classification.py` | `Metrics.lean` |
| `metrics/base.py`, `metrics/__init__.py` | `Evaluator.lean` |
| `random/graphs/*.py`, `random/hypergraphs/hypergraph.py` | `Random.lean` |
| `random/feature.py`, `random/_seed.py` | `RandomFeature.lean`, `Seed.lean` |
| `data/base.py` | `Data.lean` |
| `data/*.py` (the tables of the 32 classes; transcribed by a script that parses the sources) | `Catalogue.lean`; the docstrings are `CatalogueSpec.lean` |
| `datapipe/*.py` | `Datapipe.lean` |
| `nn/convs/graphs/*.py`, `nn/convs/hypergraphs/*.py` | `Nn.lean` |
| `nn/convs/common.py`, `models/**` except bgnn | `Models.lean` |
| `models/graphs/bgnn.py`, `nn/convs/common.py` (Discriminator) | `Bgnn.lean`, `BgnnTrain.lean` |
| `nn/loss.py`, `nn/regularization.py` | `NnLoss.lean` |
| `experiments/base.py` | `Experiment.lean`, `Study.lean` |
| signatures and documented parameters of the public interface | `Signatures.lean` |
| `experiments/vertex_classification.py`, `recommender.py` | `Task.lean` |
| data dictionary and devices of a task (`experiments/base.py`, `vertex_classification.py`) | `TaskDevice.lean` |
| `visualization/structure/*.py` | `Vis.lean` |
| `visualization/feature/*.py` | `Feature.lean` |

The remaining files are not part of the model of the code:

* `*Spec.lean`, `ListSpec.lean`: vocabulary in which the properties are stated; it does not use the
  helper functions of the model.
* `*Lemmas.lean`, `*Reads.lean`, `*Mat*.lean`, `*Abs.lean`, `*Inv.lean`, `Keeps.lean` and so on: proofs.
  In particular the `ev…` functions of `GraphReads`, `OrderedReads`, `HyperReads` are cache-free
  counterparts of the reading methods, proved equal to them on coherent states.
* `Props/*.lean`: the theorems about the properties, with an `example` beside each one showing a concrete
  case that meets its hypotheses.

### 1.3 Not modelled

* Floating point rounding, overflow, dtypes, autograd and gradients, performance, memory.
* The content of the files of datasets, and the sizes of the tensors read from them.
* The classes in `experiments/graphs`, `experiments/hypergraphs`, `metrics/graphs`, `metrics/hypergraphs`,
  which pass their arguments on to the classes modelled (their constructors are in `Signatures.lean`).
* `__repr__`, docstrings other than `Args:` sections, the text of log lines and of error messages.
* Pickling as bytes: a file holds the value that was saved.  `torch.save` likewise.
* What matplotlib does with the shapes it is given, what scikit-learn, optuna, requests, hashlib and
  scipy compute: parameters, with the assumptions stated in the theorems.
* Weights that are not numbers and vertex ids that are not integers (Python does not check types).
* `BaseHypergraph.subgraph` for directed hyperedges (there is no class with such hyperedges that could build the result).
* Empty files: `metrics/link_prediction.py`, `metrics/graphs/bipartite_graph.py`, `experiments/vertex_retrieval.py`,
  `structure/hypergraphs/directed_hypergraph.py`, `nn/pooling`.

## 2. Trusted base

* Lean's kernel.  The axioms used are `propext`, `Classical.choice` and `Quot.sound` and no other;
  section 5 lists them for each theorem.  No `sorry`, `admit`, `native_decide`, `bv_decide`, no axioms added.
* The hand translation of the cited Python lines to Lean.
* The behaviour of Python builtins, torch and numpy as written in `Py.lean`, `Sparse.lean`, `Rand.lean` and
  in the header comments of the model files: dictionary order, construction of sparse tensors,
  `coalesce`, `sparse.mm` as matrix product on the stored pattern, `sparse.sum`, `sparse.softmax`, `argsort`
  as some descending sort, `topk`, device rules.
* Exact arithmetic in place of floats.

Three checks against errors of the translation: each claim is also tried on wrong versions of
the model (`seeded/LOG.jsonl`); claims that the code violates are refuted on concrete inputs that can be replayed
with the real package (`_false` theorems, section 4); examples evaluate the model on concrete data.

## 3. Plan per property

A line says what is modelled and how the property is proved.  `_partial` and `_false` theorems say in
their comments what is missing and why; `MANIFEST.json` repeats it.

* **C01** `Graph` state with explicit cache.  Each read is proved equal to a cache-free reader on coherent
  states, mutators preserve coherence, induction on histories of calls and reads.
* **C02, C03, C18** Abstract map from unordered pairs to weights (`GraphSpec`); refinement by induction on
  the edge list and on histories; order independence for sum and max; witness for mean.
* **C04** Listing equation and lengths from the uniqueness of keys, for the three graph classes.
* **C05, C06, C07** Entries of the coalesced matrix are sums over the listing; symmetry; walks by induction on hops.
* **C08–C11** Matrix identities and quadratic forms over the listing; bounds by completing squares.
* **C12–C14** Formulas of the aggregations, range of means, positivity and proportionality of softmax
  coefficients.  The weighted mean multiplies by the row sum instead of dividing: refuted, and proved for unit totals.
* **C15, C16, C47** Heap with shared dictionaries (`Heap`): separation invariant by induction on programs; frame
  theorem; round trips through state dictionaries and files; what is lost (extra self loop flag of
  `BiGraph`, vertex weights) is refuted.
* **C17** Sublist characterisation for every stream of draws.
* **C19** Raw state and answers unchanged after an exception; witness for `Hypergraph`.
* **C20, C21** Range invariant for non-negative ids, pairing for equal lengths, witnesses for the rest.
* **C22, C23, C24** As for `Graph`, with ordered pairs; reversal is proved on unread objects and refuted on read ones.
* **C25, C26, C27, C65** Block matrix, transposition by `switch_uv`, adjointness, symmetric normalisation.
  `Spec.Bipartite` (all listed pairs are a left and a right vertex) is equivalent to `B` being readable
  (`C25_bigraph_readable`).
* **C28** Fold over the lines of adjacency lists.
* **C29, C64** Freshness and refinement for `DiGraph` and `BiGraph` as in C01, C02.
* **C30–C38, C45** `Hypergraph` with groups and two caches; same method, with a scope argument for the
  `_of_group` methods.
* **C39** Restriction by rank; last one wins among coinciding restrictions.
* **C40–C44, C49** Conversions as methods of the source object (they fill its cache); the result is described
  through its listing.
* **C48** Renaming of listings, matrices and features by a permutation; equivariance of layers and models in evaluation mode (for GAT unless there is exactly one stored adjacency entry, where it raises).
* **C50–C52** Sorting of markers by their text, `Numbers` specification; induction on lists.
* **C53–C55** Masks as lists of booleans; partition for every shuffle.
* **C56** Dataset as dictionary of interactions; the rejection loop for every stream.
* **C57, C58** Exact real arithmetic; entrywise description.
* **C60, C61** Scores are sorted by an arbitrary descending sort; counting; rearrangement inequality for ndcg.
* **C59, C62** Constructors as functions of the configurations; evaluator state machine; concatenation of batches.
* **C63** Counting of equal labels.
* **C70–C73** Generators with the stream of draws as argument; loops with a bound on the rounds.
* **C74** Ranks of labels, rows of draws.
* **C66** Linear algebra over the listing.
* **C67** Device of every tensor, cached or fresh; invariant over histories for the four classes.
* **C68** Alternation of the two sides by induction on the layers; training as arbitrary functions.
* **C69** Generators as arbitrary state machines; determinism by induction on programs.
* **C75, C76** Affine rescaling, norms and the exponential map over `ℝ`.
* **C77, C87** Files, buffers and handlers as explicit state.
* **C78, C79** Training as arbitrary functions of what they are given; two data sets that agree where allowed
  give equal runs (non-interference).
* **C80, C81** File system and a function from requests to outcomes; bounds on the number of requests.
* **C82** Item table with two caches; counting of fetches and parses along histories.
* **C83, C86** Functions on lists and texts.
* **C84, C85** Loop over epochs with arbitrary scores; files as a map.
* **C88** A simulation between the raw states of the two histories (group dictionaries mapped by `e ↦ sorted(π e)`), then the formulas of C33–C37 and C91.
* **C89** The listing of `from_graph(g)` from C43, then the formulas of C06, C09, C10 and C34, C36, C40 compared entry by entry.
* **C90, C91** Layers as functions of the structure's matrices; formulas per entry.
* **C92, C93** Real analysis of softplus; sums of powers.
* **C94** Induction on layers.
* **C96, C97** Powers of the propagation matrix; models as readers of a structure.
* **C95, C98, C99** Canvas values, geometry of segments and arcs over `ℝ`, force simulation step by step.
* **C100** Shapes of the sparse matrices of each step, independent of their entries; conditional on the call returning.
* **C101** The loop of the simulator is unfolded into a sequence of positions; each force of the model equals its closed form over finite sets; independence of numbering is a change of variables in these sums.
* **C102** Layers only read the structure, so running them in sequence on the changing caches equals running each on the original structure; then induction over the list of layers.
* **C103** The default functions fill one value per element; the drawing loops take element `i` of each list, so the picture is a function of the position in the argument lists. Fonts and `push_e_strength` are refuted where the code drops them.
* **C104** The 32 tables are data in the model, the docstrings are data in the specification; that they go together is checked by the kernel, and everything about sessions, networks and disks is by invariants over the requests. Seven wrong numbers and the five datasets whose test mask is the validation mask are refuted.
* **C105** The pure counterparts of the reads are functions of the adjacency matrix, which is determined by the weights and pairs of the listing; so listings that are permutations of each other give the same answers. For further histories the listing is shown to be equivalent to the abstract content of `C02`/`C32`, on which operations act. `C105_graph_flag_matters` shows that the self loop flag is really needed for `L_GCN`. (`DiGraph.reverse_direction` is excluded from the histories, see C22; dropout and given hyperedge weights are excluded for hypergraph messages because they refer to positions.)
* **C106** A machine (`Live.lean`) in which the cached lists and matrices are cells of a heap that the caller may keep and write to; calls are those of the class models. `LiveSpec.lean` marks, without looking at any list or matrix, the objects of which a live part was written. Simulation between a program and the program without its writes, for any class satisfying a few laws (calls do not look at the cache and only remove entries; reads keep the raw attributes and only add entries; `_clear_cache` removes all entries that can exist), which are proved for the four classes. `C106_..._live_false` are the witnesses against the full statement.
* **C107** A machine (`SharedWeights.lean`) in which the lists of vertex weights are cells of a heap shared by the caller and the hypergraphs. Every read except `v_weight` and `W_v`, and every mutating call, is shown not to look at the values of the weights (`Unweighted.lean`); simulation as for C106, with a bookkeeping of the lists by the text of the program.
* **C46, C108** A machine (`ArgLists.lean`) in which the caller's lists of hyperedges are cells of a memory and `_format_e_list` is the loop that writes to them. The calls are shown to be those of the value model plus the effect on the one cell; for programs, a simulation with the program that passes copies.
* **C109** The list returned by `e` is the object in the cache: the constructor of `ArgLists.lean` runs on it and the result is written back to the cache. Graphs and hypergraphs list ascending tuples, which the loop leaves alone; witnesses for the two other classes.
* **C110** Polarisation: a symmetric matrix whose quadratic form lies between -|x|² and |x|² does not lengthen vectors; the bounds on the forms of `L_GCN` and `L_HGNN` are those of C11, C65 and C36. Layers by induction over the calls.
* **C111** The formulas of C12, C24 and C37 as weighted averages with coefficients that sum to 1; layers by induction over the calls.
* **C112** The sorted list of pairs (mark, score) is the only strictly descending arrangement of the pairs, so the ranked marks do not depend on the sort, the order of the items or the scale of the scores; each metric is a function of the ranked marks and of symmetric functions of the marks.
* **C113** A predicate `Linear` on functions from features to features that is closed under composition, under steps that do not read the features, and holds for products with a matrix, row scalings and broadcast products; each call is put together from these.
* **C114** The place of an item is the number of items with a larger score, so places of relevant items do not grow; precision, recall and ndcg are sums over relevant items of functions that decrease with the place; for average precision the n-th relevant place does not grow (counting), so neither does the n-th precision decrease. `_false`: two rankings for which rr with k = 2 falls from 1 to 3/4.
* **C115** A relation between the groups of an object and the list of hyperedges a caller has put there (`Spec.DStore`, computed from the calls by `dAdd` and `dDel`) is kept by every call; cached matrices are those computed from the groups (`Coh`); the entries of the matrices are counts. `_partial`: calls that raise are excluded. `_false`: an object on which a call raises in the middle.
* **C116** The formatting loop sorts pairs (vertex, weight); what is stored under a hyperedge that occurs once in the call is its own content. `_false`: the content after two additions is a number, for which a third merge raises; the reading methods of weights raise on every object.
* **C117** Removal is a fold of deletions from the dictionary of the group. `_false`: both assertions at the start of the method.
* **C118** Cases on the formatting of the arguments, then the folds of `_add_edge`/`_remove_edge`, which do not raise. `_false`: negative numbers, an empty list, one weight for a list; for Hypergraph any vertices.
* **C119** From the entries of the Laplacians (C08, C09, C10, C36): the quadratic form of `D - W` is a sum of weighted squares of differences; paths are `Relation.ReflTransGen` of adjacency. Connectivity with the indicator of a component.
* **C120** Each call is shown to be local for one relation (a product with a matrix whose entries vanish off the relation, or an aggregation over the stored pairs); local functions compose along `Spec.Ball`; induction over the list of layers, using that reading does not change the graph.
* **C121** A call at `i` reads the weights at `i` and the features of neighbours; the same weights on the ball of radius k give the same row by induction over the layers. Edits change the abstract weight map only at the pairs named (C01). For hypergraphs the hyperedges at a vertex, with their weights, take the place of the weights at a vertex; each call leaves the part of the listing without its hyperedges alone.
* **C122** From the entries of the operators (C11, C12, C24, C36, C37) by exchanging two finite sums.
* **C123** From the entries of the operators by exchanging two finite sums; row and column sums of the weights are the degrees.
* **C124** With `L` symmetric and between -1 and 1 the form `|x|² - xᵀLx` does not grow under `L` (difference of the two is `zᵀz + zᵀLz`, `z = x - Lx`); `quad_form`/`share` turn it into the sum over edges or hyperedges.  Any number of calls by induction.
* **C125** Worlds of dictionaries, structure objects (moved in place) and tasks; an invariant over all programs of calls in which tasks do not share objects: data and best structure of every task are on its device.  False when two tasks share a dictionary (`C125_shared_data_false`).
* **C126** The same worlds; what each call changes, for all states.  False for devices (the six variables are written back, the structure is moved in place) and for `structure` when the task builds structures (`C126_task_false`, `C126_run_false`).
* **C127** A table of the signatures and documented parameters of 365 functions (extracted from the sources by a script), Python's binding of arguments to parameters, and the `super().__init__` calls of the task classes.  One theorem about binding for any signature that fits its documentation; that the rows of the table fit is computed.  14 rows do not fit; `C127_misdocumented_false` has a wrong call for each.
* **C128** Hypotheses about the listings only (`Spec.RenamedEdges`: the edges of one graph are the renamed edges of the other, in any order), the descriptions of the reads from C23–C27 and C65, and an induction over the layers for the recommenders (C96).  The matrices of all vertices of a bipartite graph move by `Spec.stack`.
* **C129** `Spec.GraphsBeside` describes the listing of the joined object by those of the parts; `Spec.Above` and `Spec.Blocks` describe joined features and matrices.  Row i of a product with a matrix that is zero outside a window is a product with the window; degrees and self loops follow; induction over the layers.  The constructor is handled with the abstract weight map of C01 (two maps glued together commute with writing an edge), for hypergraphs with the dictionary of the group.
* **C130** The losses, the discriminator and the order of the steps of an epoch are modelled; an optimizer is an arbitrary function that is handed the loss as a function of the parameters (it sees more than the gradient that `backward` gives it), restricted by `Spec.SoundOpt`: it keeps shapes and looks at the loss only for parameters of the right shapes.  Training is shown equal to `Spec.advRounds`/`Spec.mlpRounds`, which are written with the formulas of the losses, by induction over the epochs; success of the cascade by induction over the layers; the equilibrium by 4p(1-p) ≤ 1.  Outside the model: what Adam computes and automatic differentiation.
* **C131** Every metric is a value per sample followed by a mean; a permutation of the samples permutes the values (`collectE_shuffle`), the mean and the test for binary marks do not see the order.  The epochs follow with C62.  The order of floating point additions is outside the model; batches are assumed to be accepted one by one, since `max() == 1` is asserted for each batch (see C62).
* **C132** `Spec.Rescaled` relates two listings; the descriptions of the reads from C05–C12, C24, C27, C36, C37, C90 and C91 are compared.  The factors of the symmetric normalisation are positive square roots, so equal squares decide.  The constructor: multiplying all values of the dictionaries commutes with inserting an edge, since each merge operation is homogeneous.
* **C133** `Spec.UniformDraws`: a probability space with independent random variables, uniform in `[0, 1)`.  By C70 the event that a given graph comes out is an intersection of independent events, one for each candidate.  For the fast generators (C72) it is a box of requirements on the numbers of skipped candidates, geometrically distributed: `⌊log(1-x)/log(1-p)⌋ ≥ k` has probability `(1-p)^k`.  Products of coordinates show that such draws exist.
* **C134** `Spec.UniformChoices`: a probability space with independent draws, the `i`-th uniform among `q i` choices.  The generator's outcome after `fuel` rounds is a function of `2 * fuel` choices (`k * fuel` for `random.sample` of `k` vertices, modelled by its loop for small populations).  Permuting the possible edges permutes the choices (each possible edge is drawn in equally many ways), so all outcomes of a size have the same number of choices.  The number of choices after which it has not ended is at most `N (q - 1)^fuel`, which vanishes.
* **C135** `Spec.SplitDraws`: independent draws with as many choices as the shuffles of the classes have, one after the other.  Every arrangement of the classes belongs to exactly one family of choices, and a renaming of vertices within classes that turns one arrangement into another permutes the arrangements, so all splits come from equally many.  A split with the right counts is cut out of a class arranged as training, validation, test and other vertices.
* **C136** As C135, with the sets of the first items of each user as outcome; the items of each user are renamed separately, since users share items.  The possible outcomes are counted by binomial coefficients.
* **C137** The draws of `random.randrange(n)` and `random.choice` are residues of draws from `range(N)`, where `N` is a common multiple of all the bounds that occur.  The event that a value is returned is split by the number of rejected draws; the resulting geometric sums do not depend on the value and converge.
* **C138** C17 and C58 tell which draw decides on which edge; the draws are independent, so the probability of a selection is a product.  The mean of a dropped matrix times features is computed entry by entry; multiplication by a fixed matrix commutes with the mean.  For two halves: the first depends on its own draws only, which are independent of those of the second.  For the variance: the draws minus their means are uncorrelated, and merging duplicate entries leaves one draw for each position.
* **C139** From the coefficients of C14: scores that differ by a shift at a receiver give coefficients in one proportion, and both lists add up to 1, so they are equal; with one score raised the other coefficients shrink by one factor and the rest goes to the raised message.
* **C140** The loop of `forward` is run layer by layer; layer `l` reads the draws from `l * N` on, so what it multiplies depends on earlier draws only and is independent of its mask; by induction the mean after `l` layers is `(1 - p)^l` times the undropped chain, and the mean over the layers is linear.

## 4. Where the code disagrees with its documentation

Each item is a theorem that refutes the expectation on a concrete case, or for all inputs of a kind.  The
remaining part of the property is proved by the other theorems of the same number.

**C100 Shapes of message passing**

* `C100_update_false`: C100 fails for the update step called on its own with explicit hyperedge weights: features with a number of rows different from the number of hyperedges are accepted and broadcast.

**C103 Sizes, colours, labels and strengths belong to their elements**

* `C103_push_e_false`: C103 fails for `push_e_strength` of `draw_graph`, `draw_digraph` and `draw_bigraph`: it has no effect.
* `C103_bigraph_font_false`: C103 fails for the font sizes of `draw_bigraph`: all labels are larger than asked for, for both sides, since the two sizes are added.
* `C103_font_size_false`: C103 fails for the font size of `draw_hypergraph` and of `draw_graph` with circles: it has no effect.

**C104 The dataset classes hold what their documentation lists**

* `C104_numbers_false`: C104 fails for seven numbers: the dataset answers another number than the documentation says.
* `C104_masks_false`: C104 fails for five datasets: their test mask is their validation mask. As long as no two files have the same checksum, whatever `data["val_mask"]` answers in any session is what `data["test_mask"]` answers in any session, with any network and disk.

**C105 Results depend on the edges and weights only, not on the order or the calls by which they were added**

* `C105_digraph_histories_false`: C105 (DiGraph) fails for histories with `reverse_direction`: two directed graphs with the same edges, one of which has been read, give different adjacency matrices after `reverse_direction()`.
* `C105_hypergraph_histories_false`: C105 (Hypergraph) fails when a call with an unknown `merge_op` raises halfway: of two hypergraphs with the same hyperedges the one that has been read before lists three hyperedges afterwards, the other one four.

**C106 Changing a returned list or matrix in place does not affect structures**

* `C106_graph_live_false`: C106 does not hold in full: writing to the list returned by `g.e` changes what `g.e` returns later.
* `C106_digraph_live_false`: C106 does not hold in full: writing to the list returned by `g.e` changes what `g.e` returns later.
* `C106_bigraph_live_false`: C106 does not hold in full: writing to the list returned by `g.e` changes what `g.e` returns later.
* `C106_hypergraph_live_false`: C106 does not hold in full: writing to the list returned by `hg.v` changes what `hg.v` returns later.

**C107 Changing a list of vertex weights outside a hypergraph does not affect the hypergraph**

* `C107_shared_false`: C107 does not hold in full: an assignment to the list given to the constructor changes the weights of two hypergraphs.
* `C107_returned_false`: C107 does not hold in full: an assignment to the list returned by `v_weight` changes the weights, and leaves the `W_v` that was computed before as it is.

**C109 Making a hypergraph of the listed edges of a structure leaves the structure as it was**

* `C109_digraph_false`: C109 is false for directed graphs: `Hypergraph(3, g.e[0])` turns an edge of `g` round. Then `g` lists the edges, and has the adjacency matrix, of another graph.
* `C109_bigraph_false`: C109 is false for bipartite graphs: `Hypergraph(3, g.e[0])` exchanges the ends of an edge of `g`.

**C114 Moving relevant items up does not make a ranking worse**

* `C114_reciprocal_rank_false`: C114 is false for `rr` with a limit on the places: the value is the mean of the reciprocals of *all* relevant places within the limit, so a further relevant item among the first places lowers it.

**C115 Directed hyperedges: counts and incidence matrices follow the calls**

* `C115_after_error_false`: The claim needs calls that do not raise. A call that raises in the middle has added the hyperedges before the failure but leaves the old matrices: the object reports three hyperedges and an incidence matrix with two columns.
* `C115_same_list_false`: a list of hyperedges that has been used as an argument without weights cannot be used again, and cannot be the list of sources and of targets of one call: the call has overwritten its elements by tuples, and a list of tuples without weights is not understood

**C116 Directed hyperedges: weights of hyperedges and connections**

* `C116_merge_false`: But the weights of the connections are lost: after a hyperedge has been added a second time there is one number instead of one weight per vertex, and a third addition always raises.
* `C116_min_false`: the documented operation `min` (like any name but `mean`, `sum`, `max`) is refused as soon as a hyperedge is added again
* `C116_matrices_false`: the weighted matrices can never be read: `R_v2e`, `R_e2v` raise for every object and every group, and so do `W_v` and `W_e`

**C117 Directed hyperedges: removal removes what is listed**

* `C117_default_false`: without a group name the call always raises, although the documentation says that the hyperedges are then removed from all groups
* `C117_flat_false`: a single hyperedge whose numbers of sources and targets differ cannot be removed when it is written as for `add_hyperedges`, as two flat lists

**C118 Good arguments are accepted, vertices that do not exist are refused**

* `C118_graph_false`: What goes wrong (Graph): negative numbers are accepted; removing the edges of an empty list raises, although adding them does not; one weight for a list of edges (documented: `e_weight: Union[float, List[float]]`) raises.
* `C118_digraph_false`: what goes wrong (DiGraph), as for `Graph`
* `C118_bigraph_false`: what goes wrong (BiGraph), as for `Graph`; besides, a bipartite graph whose first side has no vertices is accepted
* `C118_hypergraph_false`: C118 (Hypergraph): no vertex is checked when hyperedges are added: the call with one hyperedge is accepted whatever its vertices are

**C125 A task works on one device**

* `C125_shared_data_false`: C125 is false for tasks that share their data: after a second task is made for the same dictionary on another device, running the first one fails, which worked before.

**C126 A task leaves the data of the caller alone**

* `C126_task_false`: C126 is false for the devices: making a task moves the tensors of the caller's dictionary, and the caller's structure.
* `C126_run_false`: C126 is false for `structure` when the task builds structures itself: after a run the caller's dictionary has the structure of the last trial in place of the caller's one.

**C127 Calls work as documented**

* `C127_misdocumented_false`: C127 is false for each function in `Spec.misdocumented`: there is a call as documented that fails or does not do what the documentation says.
* `C127_graph_task_false`: C127 is false for `GraphVertexClassificationTask`, which documents `structure_builder`: by keyword it is a `TypeError`, by position it becomes the name of the study and there is no builder.
* `C127_HyperGCN_false`: C127 is false for `HyperGCN` by position: the documented `fast` goes to the undocumented `use_bn`, and the documented `drop_rate` to `fast`.
* `C127_uniform_hypergraph_Gnp_false`: C127 is false for `uniform_hypergraph_Gnp` by position: the documented order is `num_v`, `k`, the order of the signature `k`, `num_v`.
* `C127_defaults_false`: C127 is false for two defaults: `method` of `hypergraph_Gnm` and `U_as_vertex` of `add_hyperedges_from_bigraph`.

**C13 Weighted mean aggregation is an average**

* `C13_bigraph_weighted_mean_false`: C13 (BiGraph) is false in both directions: on one edge with weight 2, the weighted mean of constant features 1 is 4.
* `C13_digraph_weighted_mean_false`: C13 (DiGraph) is false: on one edge with weight 2, the weighted mean of constant features 1 is 4.
* `C13_graph_weighted_mean_false`: C13 is false: on two vertices joined by an edge, with edge weights 2, the weighted mean of constant features 1 is 4.
* `C13_hypergraph_weighted_mean_false`: C13 (Hypergraph) is false: on one hyperedge with one vertex and weight 2, the weighted mean of the constant feature 1 is 4.

**C133 Random graphs have the documented distribution**

* `C133_fast_ends_false`: C133 fails for the fast generators at the ends: with probability zero the graph without edges should come out always, with probability one the complete graph; neither ever does.

**C14 softmax_then_sum gives convex combinations**

* `C14_graph_softmax_default_weights_false`: C14 is false when no weights are passed: the call raises `TypeError` on every graph.

**C15 Clones are faithful and independent**

* `C15_bigraph_clone_faithful_false`: C15 (BiGraph) is false: the clone of a graph with the extra self loop flag has lost the flag.
* `C15_hypergraph_clone_faithful_false`: C15 (Hypergraph) is false for vertex weights: the clone has unit weights.

**C16 State dictionaries and files round-trip**

* `C16_bigraph_round_trip_false`: C16 (BiGraph) is false: the state dictionary does not carry the extra self loop flag.
* `C16_hypergraph_state_dict_false`: C16 (Hypergraph) is false for vertex weights.

**C19 Failed calls leave the structure unchanged**

* `C19_hypergraph_failed_add_false`: C19 is false for `Hypergraph.add_hyperedges` with an unknown `merge_op`: hyperedges before the offending one stay.

**C20 Stored vertices are in range**

* `C20_digraph_in_range_false`: C20 (DiGraph) is false: `add_edges` accepts a negative vertex id, after which reading `A` raises.
* `C20_graph_in_range_false`: C20 is false: `add_edges` accepts a negative vertex id, after which reading `A` raises.

**C21 Weights are paired with their edges**

* `C21_bigraph_weights_paired_false`: C21 (BiGraph) is false: surplus edges are silently ignored.
* `C21_digraph_weights_paired_false`: C21 (DiGraph) is false: surplus edges are silently ignored.
* `C21_graph_weights_paired_false`: C21 (Graph), the claim is false of the code: with fewer weights than edges the call succeeds and the remaining edges are silently ignored.

**C22 Reversing a directed graph**

* `C22_digraph_reverse_false`: C22 is false: reading `A` first, the reversed graph still reports the old `A`, not the transpose.

**C25 Bipartite matrices**

* `C25_bigraph_flag_false`: C25 is false with the extra self loop flag and more right than left vertices: `B` cannot be built.

**C26 switch_uv exchanges the two sides**

* `C26_bigraph_switch_false`: C26 is false with the self loop flag: the switched graph has lost it, and shows fewer edges.
* `C26_bigraph_switch_twice_false`: C26 is false for an empty left side: the switched graph cannot be switched back.

**C29 DiGraph and BiGraph reads are never stale**

* `C29_bigraph_clone_fresh_false`: C29 (BiGraph) is false for clones of flagged objects: whether `e` was read before cloning changes what the clone answers.
* `C29_digraph_fresh_false`: C29 (DiGraph) is false: after reading `e`, `reverse_direction()` does not change the answer of `e`, although without the first read it does.

**C30 Hypergraph reads are never stale**

* `C30_hypergraph_reads_fresh_false`: C30 is false without the restriction on histories: `add_hyperedges` with an unknown `merge_op` that meets an existing hyperedge raises after having added others, and the caches are not cleared.

**C32 Groups are isolated**

* `C32_hypergraph_unknown_group_raises_false`: C32, the part on unknown names, is false for `remove_group` and `drop_hyperedges_of_group`: they accept an unknown group and do nothing.

**C33 Incidence matrix**

* `C33_hypergraph_H_false`: C33 fails for the whole hypergraph without groups: `H` raises.

**C34 Hypergraph degrees and weights**

* `C34_hypergraph_degrees_false`: C34 fails for a hypergraph without groups: reading degrees raises.

**C35 Hypergraph neighbour queries**

* `C35_hypergraph_nbr_e_false`: C35 fails for a hypergraph without groups: `nbr_e` raises.

**C36 Hypergraph Laplacians**

* `C36_hypergraph_laplacians_false`: C36 fails for a hypergraph without groups: the Laplacians raise.

**C37 Hypergraph message passing**

* `C37_hypergraph_e2v_mean_false`: C37 is false for `e2v` with `aggr='mean'` as an average: on a hyperedge of weight 2, the vertex receives half of the feature of its only hyperedge.
* `C37_hypergraph_no_groups_false`: C37 fails for a hypergraph without groups: message passing raises.

**C39 Sub-hypergraph**

* `C39_hypergraph_sub_weights_false`: C39 is false for weights when two restrictions coincide: the weight of one of them is lost.

**C40 Clique expansion**

* `C40_clique_miu_false`: C40 is false about `miu`: the argument has no effect, so the weights are not scaled by it.
* `C40_clique_empty_false`: C40 is false for hypergraphs without any group: the expansion raises.

**C41 Star expansion and bipartite conversion**

* `C41_star_empty_false`: C41 is false for hypergraphs without any group: the star expansion raises.
* `C41_bigraph_empty_false`: C41 is false with `vertex_as_U` for hypergraphs without hyperedges: the constructor refuses a bipartite graph with `num_v = 0`.

**C43 Hypergraph from graph**

* `C43_from_graph_false`: C43 is false for graphs with a self loop and extra self loops: vertex 2 has the listed loops of weight 7 and 1, the hypergraph has one with weight 4.

**C44 HyperGCN expansion**

* `C44_hypergcn_pair_false`: C44 is false with mediators and removal of self loops when all hyperedges have two vertices: no edge is collected and the expansion raises.
* `C44_hypergcn_tie_false`: C44 is false for hyperedges whose vertices all have the same projection: both extremes are the same vertex, so the hyperedge contributes no edge.
* `C44_hypergcn_single_false`: C44 is false for hyperedges with a single vertex: the expansion raises.

**C45 Vertex weights are preserved**

* `C45_hypergraph_clone_false`: C45 is false for `clone`: it loses the weights, and if `W_v` was read before, the clone's `W_v` contradicts its own `v_weight`.
* `C45_hypergraph_drop_state_false`: C45 is false for `drop_hyperedges` and `from_state_dict(state_dict)`: the weights are lost.
* `C45_hypergraph_assign_false`: C45 is false for assignment: it always raises `AttributeError`.
* `C45_hypergraph_clear_false`: C45 is false for `clear`: the vertices stay but `v_weight` is `None` and `W_v` raises.

**C46 Arguments are not modified**

* `C46_hypergraph_argument_unchanged_false`: C46 is false: in a list of hyperedges given as lists, each is replaced by a sorted tuple.

**C47 State dictionaries are snapshots**

* `C47_graph_snapshot_false`: C47 (Graph) is false: adding an edge changes the state dictionaries already taken.
* `C47_digraph_snapshot_false`: C47 (DiGraph) is false.
* `C47_bigraph_snapshot_false`: C47 (BiGraph) is false.
* `C47_hypergraph_snapshot_false`: C47 (Hypergraph) is false.
* `C47_graph_mixed_false`: C47 (Graph). A state dictionary taken before `add_extra_selfloop` and edges added after it mix the two states: the object rebuilt has the new edges and the old flag.

**C49 k nearest neighbour hypergraph**

* `C49_knn_own_false`: C49 is false about the own vertex: with equal features vertex 0 may be in no hyperedge.
* `C49_knn_count_false`: C49 is false about the number of hyperedges: rows with equal features give equal hyperedges, which are merged.

**C52 Remapping adjacency lists**

* `C52_remap_adj_list_false`: C52 is false: a vertex that only occurs on a line without neighbours raises `KeyError`.
* `C52_remap_adj_list_bipartite_false`: C52 is false in the bipartite form too: an empty line raises `IndexError`, a user without items `KeyError`.

**C53 split_by_num**

* `C53_split_by_num_gap_false`: C53 is false for labels with a gap: the vertex with label 2 is in no mask, whatever the shuffles.
* `C53_split_by_num_single_false`: C53 is false for a single vertex: its label vector is squeezed to dimension 0 and the call raises `AssertionError`.
* `C53_split_by_num_negative_false`: C53 is false for negative counts, which are accepted and count from the end: a vertex is in the training and the test mask, whatever the shuffles.

**C54 split_by_ratio**

* `C54_split_by_ratio_single_false`: C54 is false for a single vertex.
* `C54_split_by_ratio_gap_false`: C54 is false for labels with a gap: the vertex with label 2 is in no mask, whatever the shuffles.
* `C54_split_by_ratio_negative_false`: C54 is false for negative ratios, which are accepted: the product with the class size is cut towards zero and counts from the end, and a vertex is in the training and the test mask, whatever the shuffles.

**C60 Ranking metrics are in range and consistent**

* `C60_negative_k_false`: The range claim fails for a negative `k`: two relevant items, `k = -1`, precision `-1`.

**C61 Average precision, reciprocal rank and top-k**

* `C61_ap_topk_false`: `ap` and `map` at `k = 1` depend on what is ranked third: two ground truths that agree on the first place of the ranking by the scores 3, 2, 1.
* `C61_rr_false`: `rr` is not the reciprocal of the first relevant place when several items are relevant (here places 1 and 2 are: 3/4 instead of 1), and it is `nan` instead of 0 when none is.
* `C61_pr_curve_topk_false`: `pr_curve` at `k = 1` depends on what is ranked third.

**C62 Batched evaluation equals whole-set evaluation**

* `C62_classification_batches_false`: Classification evaluators cannot be fed batch by batch: none of the classification metrics takes `ret_batch`, so both calls raise `TypeError`.
* `C62_returned_result_changes_false`: C62 fails for returned test results: a dictionary handed out after one epoch holds the results of the next epoch after the next call.
* `C62_batch_without_relevant_false`: C62 fails for batches without a relevant item: the whole set is accepted, one of its batches is refused.
* `C62_equal_markers_false`: C62 fails for metrics whose parameters agree to four digits: precision for the ratios 0.5 and 0.50001 of two items share one marker, and the reported result, 3/4, is neither that of the first metric (1) nor that of the second (1/2).
* `C62_validate_curve_false`: C62 fails for curves in validation: with the default eleven points, reading the epoch result after adding a batch with at least one sample raises `ValueError`.

**C67 Structures and features may be moved between devices**

* `C67_graph_hops_false`: C67 fails for the neighbours of a `Graph` within two steps: the power of the adjacency matrix is cached under a name that `to` does not move, so after a first call on the CPU and `to(1)` the answer is still on the CPU.
* `C67_digraph_edgeless_false`: C67 fails for a `DiGraph` without edges: its adjacency matrix is made on the CPU whatever its device, so message passing on device 1 raises.
* `C67_bigraph_laplacian_false`: C67 fails for the GCN Laplacian of a `BiGraph`: `to` forgets it, so smoothing after a move raises.
* `C67_bigraph_smoothing_false`: C67 fails for smoothing on a `BiGraph`: the features are moved to the graph, not the graph to the features.
* `C67_bigraph_edgeless_false`: C67 fails for a `BiGraph` without edges: `B` is made on the CPU, and `A` cannot be read on another device.
* `C67_hypergraph_move_false`: C67 fails for a `Hypergraph` that was used before it is moved: after reading `H` on the CPU and `to(1)`, the vertex degrees and the HGNN Laplacian cannot be read.
* `C67_hypergraph_group_false`: C67 fails for the incidence matrix of one group: after reading `H` on the CPU and `to(1)` it is still on the CPU.
* `C67_hypergraph_add_false`: C67 fails for a `Hypergraph` that gets a new group after the move: then even `H` cannot be read.
* `C67_hypergraph_smoothing_false`: C67 fails for features on another device: unlike message passing, smoothing moves the features to the hypergraph.

**C68 BGNN alternates between the two sides**

* `C68_influence_false`: C68 fails in that not every argument and layer matters: the left features passed in have no influence on the result of a model with at least one layer, and neither has the last layer of a model with an even number of layers, as only the left features are returned.

**C69 Seeds make runs reproducible**

* `C69_refused_false`: C69 fails for seeds out of the range of numpy: `set_seed` raises `ValueError`, but `seed()` answers the refused seed afterwards, and of the three generators only that of `random` is seeded.
* `C69_experiment_false`: C69 fails for experiments without a seed: the second call of `seed()` may fall in the next second, so that the seed logged is not the one used.

**C71 G(n,m) generators**

* `C71_graph_Gnm_complete_false`: C71 (`graph_Gnm`) fails at the bound: the complete graph, `num_e = num_v (num_v - 1) / 2`, is refused although the documentation only excludes larger values.
* `C71_digraph_Gnm_complete_false`: C71 (`digraph_Gnm`) fails at the bound: the complete directed graph is refused.
* `C71_uniform_hypergraph_Gnm_overfull_false`: C71 (`uniform_hypergraph_Gnm`) fails for impossible counts: with more hyperedges than there are sets of `k` vertices the call is not refused and never returns, whatever the draws.
* `C71_hypergraph_Gnm_overfull_false`: C71 (`hypergraph_Gnm`) fails for impossible counts: a call asking for more hyperedges than there are sets of at least two vertices never returns a hypergraph.

**C72 Fast G(n,p) generators**

* `C72_prob_one_false`: C72 fails at probability one: the documented value is accepted by the check and then raises `ValueError` (`log 0`), whatever the draws.
* `C72_prob_zero_false`: C72 fails at probability zero: the call raises `ZeroDivisionError` at the first draw instead of returning a graph without edges.

**C75 Pictures of embeddings**

* `C75_same_direction_false`: C75 fails for the picture in the Poincaré ball of embeddings that all point in one direction: no vertex is drawn, as all coordinates are NaN.

**C76 Projection to the Poincare ball**

* `C76_same_direction_false`: C75, C76 fail for embeddings that all point in the same direction: with a reduction that maps equal rows to equal rows, every coordinate of the projection and of the picture is NaN.

**C77 Redirected output**

* `C77_twice_false`: C77 fails for a file that is attached twice, as by running a cell of a notebook again: it gets every text twice.

**C78 Vertex classification uses each label for its own purpose**

* `C78_report_false`: C78 fails for a metric that is not a number, such as the confusion matrix: the run raises `TypeError` at the end, when all trials are done, the best model is loaded, and the test results are computed.

**C79 Recommender tasks score every user once**

* `C79_device_false`: C79 fails for a task on another device than its loader: validation works (`C79_validate`), but every test raises `RuntimeError`, and so does the end of every run.
* `C79_no_structure_false`: Without a structure (the model needs none), experiments fail with `KeyError` when they save their structure: no run of a task without `structure` in its data and without a `structure_builder` succeeds.
* `C79_interrupted_false`: C79 fails after a validation that was interrupted by an exception: the batches scored before count in the next result.
* `C79_leak_false`: C79 fails for the choice of the best model: it is made with the data the model is tested on. Two tasks that differ in the test items of a user only return models of different epochs.

**C81 Download failures are retried and recoverable**

* `C81_outside_cache_false`: C81 fails for files outside the cache directory (a custom `data_root`): a missing file raises `ValueError` before any request is made, however well the network works.
* `C81_next_call_false`: C81 fails as stated: after a process killed during the transfer, the next call on a working network raises `ValueError` (it finds the truncated file); only the call after that succeeds.

**C82 Dataset items are loaded once and consistently**

* `C82_none_false`: "At most once" fails for a loader that answers `None`: the absent value and the value `None` are not told apart, and every request parses again.
* `C82_custom_root_false`: With a `data_root` outside the cache directory a missing file is never downloaded: the request raises, whatever the network would have answered.

**C83 Data pipes compose in order**

* `C83_norm_other_false`: Not for every order: with `ord=0` rows do not get norm 1, and with `ord=-inf` a row with one zero entry is wiped out.
* `C83_scaler_constant_false`: A matrix whose entries are all equal is refused with a `ZeroDivisionError`.

**C84 Model selection keeps the best epoch**

* `C84_minimize_false`: The part about `minimize` is false: whatever the scores, an experiment that is not pruned raises an `AttributeError` after the last epoch and leaves an empty file in place of the model.
* `C84_no_score_false`: So does an experiment whose scores are all NaN, or that has no epoch.

**C85 Only the best trial's files remain**

* `C85_all_pruned_false`: When all trials are pruned the run raises a `ValueError`: there is no best trial.
* `C85_minimize_false`: A run with direction `minimize` fails at its first trial that is not pruned.

**C86 Loaders read back what is in the file**

* `C86_blank_false`: A blank line is not skipped: it becomes a row with one empty field, which `int` and `float` refuse. So is every run of two separators.

**C87 Study directories**

* `C87_none_false`: C87 fails for `work_root=None`, which the signature allows: it raises `TypeError`.
* `C87_same_second_false`: C87 fails for tasks without a name created within one second: the second task takes the directory of the first, and everything in it is gone.
* `C87_shared_log_false`: C87 fails for logs: what one task logs is written to the logs of the tasks created before, too.

**C90 Graph convolution layers compute their formulas**

* `C90_gat_single_false`: C90 is false for `GATConv` on a graph with a single self loop: `.squeeze()` removes the only dimension of the scores and the call raises `IndexError`.

**C91 Hypergraph convolution layers compute their formulas**

* `C91_unigin_conv_false`: C91 is false for `UniGINConv` with `eps ≠ 0`: with two vertices, the hyperedge `{1}` and `eps = 1`, vertex 0 keeps its features unscaled.
* `C91_unigcn_conv_false`: C91 is false for `UniGCNConv` with a hyperedge of weight 0: its average degree is `0 / 0` and the result contains NaN.
* `C91_unigat_single_false`: C91 is false for `UniGATConv` on a hypergraph with a single incidence: `.squeeze()` removes the only dimension of the scores and the call raises `IndexError`.

**C92 BPR loss**

* `C92_bpr_softplus_false`: C92 is false with `softplus`: torch switches to the identity above 20, so a negative score slightly above 20 has a lower loss than a negative score of 20.

**C93 Embedding regularisation**

* `C93_reg_nonneg_false`: C93 is false for odd powers: the powers are not of absolute values, and the regularisation of a negative embedding is negative.

**C95 Drawing defaults**

* `C95_fill_color_false`: C95 fails for colours: a list with a wrong number of colours is accepted, although a list with a wrong number of sizes is refused.
* `C95_layout_false`: C95 fails for a single vertex: the layout of a hypergraph with one vertex and one hyperedge is NaN, for all draws and strengths.
* `C95_font_size_false`: C95 fails for the font size of `draw_graph` and `draw_digraph`: the argument has no effect.

**C97 Models keep no memory of earlier calls**

* `C97_hypergcn_fast_false`: C97 fails for `HyperGCN` with `fast=True`: a call on a hypergraph that would succeed raises because the model was called before, on another hypergraph.

**C98 Drawings show the structure**

* `C98_close_false`: C98 fails for points close to each other: with the unit sizes 0.1 and 0.01, two vertices at distance 0.05 and the hyperedge of both, nothing is drawn.
* `C98_labels_false`: C98 fails for labels in `draw_bigraph`: labels given for one side only are not drawn at all.

**C99 Layout forces follow the structure**

* `C99_bipartite_false`: C99 fails for `draw_bigraph`: the vertices of the second side are not renumbered before the layout. Two different bipartite graphs get the same layout, and the centre of an edge is not the mean of its two ends.

## 5. Axioms of each theorem

From `#print axioms`.  P = `propext`, C = `Classical.choice`, Q = `Quot.sound`.

**C01** (proved; `Props/GraphEdges.lean`)
* PCQ: `C01_graph_reads_fresh`, `C01_graph_reads_do_not_interfere`

**C02** (proved; `Props/GraphEdges.lean`)
* PCQ: `C02_graph_edge_set`, `C02_orientation_irrelevant`, `C02_one_weight_per_pair`

**C03** (proved; `Props/GraphEdges2.lean`)
* PCQ: `C03_merge_rule`, `C03_order_independent`, `C03_mean_is_order_dependent`

**C04** (proved; `Props/BiGraphEdges.lean`, `Props/DiGraphEdges.lean`, `Props/GraphEdges2.lean`)
* PCQ: `C04_bigraph_listing`, `C04_digraph_listing`, `C04_graph_listing`

**C05** (proved; `Props/GraphMatrices.lean`)
* PCQ: `C05_graph_adjacency`, `C05_graph_edge_vectors`

**C06** (proved; `Props/GraphMatrices.lean`)
* PCQ: `C06_graph_degrees`, `C06_graph_degree_total`

**C07** (proved; `Props/GraphMatrices.lean`)
* PCQ: `C07_graph_neighbours`, `C07_graph_neighbours_one`, `C07_graph_neighbours_symmetric`, `C07_graph_neighbours_bad_hop`

**C08** (proved; `Props/GraphMatrices.lean`)
* PCQ: `C08_graph_laplacian`, `C08_graph_laplacian_psd`, `C08_graph_laplacian_no_effect`

**C09** (proved; `Props/GraphMatrices.lean`)
* PCQ: `C09_graph_Dv_neg_half`, `C09_graph_Lsym`

**C10** (proved; `Props/GraphMatrices.lean`)
* PCQ: `C10_graph_Lrw`

**C100** (partial; `Props/Shapes.lean`)
* PCQ: `C100_graph`, `C100_digraph`, `C100_bigraph`, `C100_hypergraph`, `C100_update_false`

**C101** (proved; `Props/Layout.lean`)
* PCQ: `C101_force_layout`, `C101_bipartite_force_layout`, `C101_succeeds`, `C101_renumber`

**C102** (proved; `Props/ModelForm.lean`)
* PCQ: `C102_graph_stacks`, `C102_gat`, `C102_gin`, `C102_hypergraph_stacks`, `C102_unigat`, `C102_hypergcn`

**C103** (partial; `Props/Styles.lean`)
* PCQ: `C103_draw_graph_partial`, `C103_push_e_false`, `C103_draw_bigraph_partial`, `C103_bigraph_font_false`, `C103_draw_circles_partial`, `C103_draw_hypergraph_partial`, `C103_font_size_false`, `C103_defaults`

**C104** (partial; `Props/Catalogue.lean`)
* PCQ: `C104_content`, `C104_numbers_partial`, `C104_numbers_false`, `C104_authentic`, `C104_types`, `C104_apart`, `C104_distinct_partial`, `C104_masks_false`, `C104_obtained`

**C105** (partial; `Props/OrderFree.lean`)
* PCQ: `C105_graph`, `C105_graph_GCN`, `C105_graph_listing`, `C105_digraph`, `C105_bigraph`, `C105_hypergraph_matrices`, `C105_hypergraph_edges`, `C105_hypergraph_v2e`, `C105_hypergraph_e2v`, `C105_hypergraph_v2v`, `C105_graph_histories`, `C105_digraph_histories_partial`, `C105_bigraph_histories`, `C105_hypergraph_histories_partial`, `C105_graph_flag_matters`, `C105_digraph_histories_false`, `C105_hypergraph_histories_false`

**C106** (partial; `Props/Live.lean`)
* PCQ: `C106_graph_data`, `C106_digraph_data`, `C106_bigraph_data`, `C106_hypergraph_data`, `C106_graph_untouched_partial`, `C106_digraph_untouched_partial`, `C106_bigraph_untouched_partial`, `C106_hypergraph_untouched_partial`, `C106_graph_refreshed`, `C106_digraph_refreshed`, `C106_bigraph_refreshed`, `C106_hypergraph_refreshed`, `C106_graph_live_false`, `C106_digraph_live_false`, `C106_bigraph_live_false`, `C106_hypergraph_live_false`

**C107** (partial; `Props/SharedWeights.lean`)
* PCQ: `C107_elsewhere`, `C107_data`, `C107_unshared_partial`, `C107_default_weights`, `C107_shared_false`, `C107_returned_false`

**C108** (proved; `Props/ArgLists.lean`)
* PCQ: `C108_same_hypergraphs`, `C108_lists`, `C108_copies`, `C108_lists_may_change`

**C109** (partial; `Props/ArgLists.lean`)
* PCQ: `C109_graph`, `C109_hypergraph`, `C109_digraph_result`, `C109_bigraph_result`, `C109_digraph_partial`, `C109_bigraph_partial`, `C109_digraph_false`, `C109_bigraph_false`

**C11** (proved; `Props/GraphMatrices.lean`)
* PCQ: `C11_graph_LGCN`, `C11_graph_smoothing`

**C110** (proved; `Props/Contract.lean`)
* PCQ: `C110_graph`, `C110_graph_layers`, `C110_graph_fixed`, `C110_bigraph`, `C110_hypergraph`, `C110_hypergraph_layers`

**C111** (proved; `Props/Range.lean`)
* PCQ: `C111_graph`, `C111_graph_layers`, `C111_digraph`, `C111_hypergraph`, `C111_hypergraph_layers`

**C112** (proved; `Props/MetricsOrder.lean`)
* PCQ: `C112_precision_recall`, `C112_average_precision`, `C112_ndcg`, `C112_equal_scores_differ`

**C113** (proved; `Props/Linear.lean`)
* PCQ: `C113_graph`, `C113_digraph`, `C113_bigraph`, `C113_hypergraph`, `C113_smoothing`

**C114** (partial; `Props/MetricsUp.lean`)
* PCQ: `C114_precision_recall`, `C114_average_precision`, `C114_reciprocal_rank_partial`, `C114_reciprocal_rank_false`, `C114_ndcg`

**C115** (partial; `Props/DirHyper.lean`)
* PCQ: `C115_counts_partial`, `C115_incidence_partial`, `C115_after_error_false`
* PQ: `C115_same_list_false`

**C116** (partial; `Props/DirHyper.lean`)
* PCQ: `C116_first_partial`, `C116_others`, `C116_merge_partial`, `C116_merge_false`, `C116_min_false`, `C116_matrices_false`

**C117** (partial; `Props/DirHyper.lean`)
* PCQ: `C117_removed_partial`, `C117_accepted`
* PQ: `C117_default_false`, `C117_flat_false`

**C118** (partial; `Props/Accepts.lean`)
* PCQ: `C118_graph_add_partial`, `C118_graph_remove_partial`, `C118_graph_new_partial`, `C118_graph_adj_list_partial`, `C118_graph_false`, `C118_digraph_add_partial`, `C118_digraph_remove_partial`, `C118_digraph_new_partial`, `C118_digraph_adj_list_partial`, `C118_digraph_false`, `C118_bigraph_add_partial`, `C118_bigraph_remove_partial`, `C118_bigraph_new_partial`, `C118_bigraph_adj_list_partial`, `C118_bigraph_false`, `C118_hypergraph_false`

**C119** (proved; `Props/Kernel.lean`)
* PCQ: `C119_graph_L`, `C119_graph_connected`, `C119_graph_Lrw`, `C119_graph_Lsym`, `C119_hypergraph_Lrw`, `C119_hypergraph_Lsym`

**C12** (proved; `Props/GraphMessages.lean`)
* PCQ: `C12_graph_v2v_sum`, `C12_graph_v2v_mean`, `C12_graph_v2v_mean_bounds`, `C12_graph_v2v_local`

**C120** (proved; `Props/Local.lean`)
* PCQ: `C120_graph_call`, `C120_graph_network`, `C120_graph_components`, `C120_digraph_call`, `C120_digraph_network`, `C120_bigraph_call`, `C120_hypergraph_call`, `C120_hypergraph_network`, `C120_hypergraph_components`

**C121** (proved; `Props/Edits.lean`, `Props/EditsHyper.lean`, `Props/EditsOrdered.lean`, `Props/EditsRemove.lean`)
* PCQ: `C121_graph_around`, `C121_graph_edits`, `C121_graph_add_edge`, `C121_hypergraph_around`, `C121_hypergraph_edits`, `C121_digraph_add_edge`, `C121_bigraph_add_edge`, `C121_digraph_remove_edge`, `C121_bigraph_remove_edge`, `C121_graph_remove_edge`

**C122** (proved; `Props/Adjoint.lean`)
* PCQ: `C122_graph_v2v`, `C122_graph_smoothing`, `C122_digraph_v2v`, `C122_hypergraph_v2e`, `C122_hypergraph_v2v`, `C122_hypergraph_smoothing`

**C123** (proved; `Props/Conserve.lean`)
* PCQ: `C123_graph_sum`, `C123_graph_mean`, `C123_graph_smoothing`, `C123_digraph_sum`, `C123_digraph_mean`, `C123_bigraph_sum`, `C123_bigraph_mean`, `C123_hypergraph_sum`, `C123_hypergraph_mean`

**C124** (proved; `Props/Energy.lean`)
* PCQ: `C124_graph`, `C124_graph_layers`, `C124_hypergraph`, `C124_hypergraph_layers`

**C125** (partial; `Props/TaskData.lean`)
* P: `C125_shared_data_false`
* PCQ: `C125_data_on_device_partial`, `C125_no_mismatch_partial`

**C126** (partial; `Props/TaskData.lean`)
* P: `C126_task_false`, `C126_run_false`
* PQ: `C126_task_partial`, `C126_to_partial`, `C126_run_partial`

**C127** (partial; `Props/Signatures.lean`)
* P: `C127_defaults_false`
* PCQ: `C127_calls_as_documented_partial`, `C127_keyword_calls_partial`, `C127_task_constructors_partial`, `C127_graph_task_partial`
* PQ: `C127_misdocumented_false`, `C127_graph_task_false`
* none: `C127_HyperGCN_false`, `C127_uniform_hypergraph_Gnp_false`

**C128** (proved; `Props/OrderedRename.lean`)
* PCQ: `C128_digraph_reads`, `C128_digraph_neighbours`, `C128_digraph_v2v`, `C128_bigraph_reads`, `C128_bigraph_neighbours`, `C128_bigraph_messages`, `C128_bigraph_GCN`, `C128_lightgcn`, `C128_ngcf`, `C128_dhcf`

**C129** (proved; `Props/SideBySide.lean`, `Props/SideBySideHyper.lean`)
* PCQ: `C129_graph_networks`, `C129_graph_matrices`, `C129_graph_built`, `C129_hypergraph_networks`, `C129_hypergraph_built`

**C13** (partial; `Props/BiGraphMatrices.lean`, `Props/DiGraphMatrices.lean`, `Props/GraphMessages.lean`, `Props/HyperMessages.lean`)
* PCQ: `C13_bigraph_explicit_weights`, `C13_bigraph_weighted_mean_partial`, `C13_bigraph_weighted_mean_false`, `C13_digraph_explicit_weights`, `C13_digraph_weighted_mean_partial`, `C13_digraph_weighted_mean_false`, `C13_graph_explicit_weights`, `C13_graph_weighted_mean_partial`, `C13_graph_weighted_mean_false`, `C13_hypergraph_explicit_weights`, `C13_hypergraph_weighted_mean_partial`, `C13_hypergraph_weighted_mean_false`

**C130** (proved; `Props/BgnnTrain.lean`)
* PCQ: `C130_discriminator`, `C130_adversarial`, `C130_mlp`, `C130_adversarial_returns`, `C130_mlp_returns`, `C130_equilibrium`, `C130_bounds`, `C130_mlp_loss`, `C130_mlp_floor`

**C131** (proved; `Props/MetricsShuffle.lean`)
* PCQ: `C131_values`, `C131_mean`, `C131_mean_curve`, `C131_validate`, `C131_test`, `C131_test_epoch`

**C132** (proved; `Props/ScaledWeights.lean`)
* PCQ: `C132_graph_new`, `C132_graph_proportional`, `C132_graph_invariant`, `C132_graph_sage`, `C132_graph_LGCN_differs`, `C132_digraph`, `C132_bigraph`, `C132_hypergraph_matrices`, `C132_hypergraph_v2v`, `C132_hypergraph_layers`

**C133** (partial; `Props/RandomLaw.lean`)
* PCQ: `C133_graph_Gnp`, `C133_graph_Gnp_fast_partial`, `C133_digraph_Gnp`, `C133_bigraph_Gnp`, `C133_uniform_hypergraph_Gnp`, `C133_digraph_Gnp_fast_partial`, `C133_graph_same_partial`, `C133_fast_ends_false`, `C133_draws_exist`

**C134** (partial; `Props/RandomUniform.lean`)
* PCQ: `C134_graph_Gnm_partial`, `C134_digraph_Gnm_partial`, `C134_bigraph_Gnm`, `C134_uniform_hypergraph_Gnm`, `C134_draws_exist`

**C135** (proved; `Props/SplitUniform.lean`)
* PCQ: `C135_split_by_num`, `C135_split_by_num_possible`, `C135_split_by_num_uniform`, `C135_split_by_ratio`, `C135_split_by_ratio_possible`, `C135_split_by_ratio_uniform`, `C135_draws_exist`

**C136** (proved; `Props/SplitUniformUI.lean`)
* PCQ: `C136_split_by_num_UI`, `C136_split_by_ratio_UI`, `C136_draws_exist`

**C137** (proved; `Props/SampleUniform.lean`)
* PCQ: `C137_negative_item`, `C137_triplet`, `C137_draws_exist`

**C138** (proved; `Props/DropDeep.lean`, `Props/DropLaw.lean`, `Props/DropMean.lean`, `Props/DropRows.lean`, `Props/DropSpread.lean`, `Props/DropSpread2.lean`, `Props/DropTwice.lean`)
* PCQ: `C138_graph_smoothing_layers`, `C138_bigraph_smoothing_layers`, `C138_hypergraph_smoothing_layers`, `C138_graph_drop_edges`, `C138_digraph_drop_edges`, `C138_bigraph_drop_edges`, `C138_hypergraph_drop`, `C138_hypergraph_drop_group`, `C138_graph_v2v_dropout`, `C138_graph_smoothing_dropout`, `C138_digraph_v2v_dropout`, `C138_bigraph_u2v_dropout`, `C138_bigraph_v2u_dropout`, `C138_bigraph_smoothing_dropout`, `C138_hypergraph_aggr_dropout`, `C138_hypergraph_dropout`, `C138_hypergraph_smoothing_dropout`, `C138_sparse_dropout`, `C138_graph_mean_variance`, `C138_graph_sum_rows`, `C138_graph_smoothing_rows`, `C138_digraph_sum_rows`, `C138_bigraph_u2v_rows`, `C138_bigraph_v2u_rows`, `C138_bigraph_smoothing_rows`, `C138_hypergraph_smoothing_rows`, `C138_graph_sum_variance`, `C138_graph_smoothing_variance`, `C138_hypergraph_smoothing_variance`, `C138_digraph_dst2src_variance`, `C138_digraph_src2dst_variance`, `C138_bigraph_v2u_variance`, `C138_bigraph_u2v_variance`, `C138_bigraph_smoothing_variance`, `C138_hypergraph_v2v_dropout`

**C139** (proved; `Props/Attention.lean`)
* PCQ: `C139_graph_shift`, `C139_graph_raise`, `C139_graph_equal`, `C139_digraph_shift`, `C139_digraph_raise`, `C139_digraph_equal`, `C139_bigraph_shift`, `C139_bigraph_raise`, `C139_bigraph_equal`, `C139_hypergraph_shift`, `C139_hypergraph_raise`, `C139_hypergraph_equal`, `C139_digraph_equal_default`, `C139_bigraph_equal_default`, `C139_hypergraph_default`

**C14** (partial; `Props/BiGraphMatrices.lean`, `Props/DiGraphMatrices.lean`, `Props/GraphMessages.lean`, `Props/HyperMessages.lean`)
* PCQ: `C14_bigraph_softmax`, `C14_bigraph_softmax_default`, `C14_digraph_softmax`, `C14_digraph_softmax_default`, `C14_graph_softmax`, `C14_graph_softmax_default_weights_false`, `C14_hypergraph_softmax`, `C14_hypergraph_softmax_default`

**C140** (proved; `Props/LightGcnDrop.lean`)
* PCQ: `C140_lightgcn_training`

**C15** (partial; `Props/BiGraphEdges.lean`, `Props/DiGraphEdges.lean`, `Props/GraphEdges2.lean`, `Props/Heap.lean`, `Props/HyperEdges.lean`)
* PCQ: `C15_bigraph_clone_faithful_false`, `C15_bigraph_clone_faithful_partial`, `C15_digraph_clone_faithful`, `C15_graph_clone_faithful`, `C15_graph_clones_independent`, `C15_digraph_clones_independent`, `C15_bigraph_clones_independent`, `C15_hypergraph_clones_independent`, `C15_objects_independent`, `C15_graph_clone_answers`, `C15_original_answers`, `C15_hypergraph_clone_faithful_partial`, `C15_hypergraph_clone_default`, `C15_hypergraph_clone_faithful_false`

**C16** (partial; `Props/BiGraphEdges.lean`, `Props/DiGraphEdges.lean`, `Props/GraphEdges2.lean`, `Props/Heap.lean`, `Props/HyperEdges.lean`)
* PCQ: `C16_bigraph_round_trip_false`, `C16_bigraph_round_trip_partial`, `C16_digraph_state_dict_round_trip`, `C16_graph_state_dict_round_trip`, `C16_graph_file_round_trip`, `C16_digraph_file_round_trip`, `C16_bigraph_file_round_trip_partial`, `C16_hypergraph_file_round_trip_partial`, `C16_load_other_class`, `C16_load_missing_file`, `C16_hypergraph_state_dict_partial`, `C16_hypergraph_state_dict_false`
* PQ: `C16_save_needs_directory`

**C17** (proved; `Props/BiGraphEdges.lean`, `Props/DiGraphEdges.lean`, `Props/Drops.lean`, `Props/GraphEdges2.lean`, `Props/HyperEdges.lean`)
* PCQ: `C17_bigraph_drop_edges`, `C17_digraph_drop_edges`, `C17_digraph_drop_all`, `C17_bigraph_drop_all`, `C17_hypergraph_drop_all`, `C17_graph_drop_edges`, `C17_graph_drop_all`, `C17_hypergraph_drop`

**C18** (proved; `Props/BiGraphEdges.lean`, `Props/DiGraphEdges.lean`, `Props/GraphEdges2.lean`)
* PCQ: `C18_bigraph_remove_exactly`, `C18_bigraph_remove_absent`, `C18_bigraph_remove_idempotent`, `C18_bigraph_add_then_remove`, `C18_digraph_remove_exactly`, `C18_digraph_remove_absent`, `C18_digraph_remove_idempotent`, `C18_digraph_add_then_remove`, `C18_graph_remove_exactly`, `C18_graph_remove_absent`, `C18_graph_remove_idempotent`, `C18_graph_add_then_remove`

**C19** (partial; `Props/BiGraphEdges.lean`, `Props/DiGraphEdges.lean`, `Props/GraphEdges2.lean`, `Props/HyperEdges.lean`)
* PCQ: `C19_bigraph_failed_calls_atomic`, `C19_bigraph_bad_arguments_raise`, `C19_digraph_failed_calls_atomic`, `C19_digraph_bad_arguments_raise`, `C19_graph_failed_calls_atomic`, `C19_graph_bad_arguments_raise`, `C19_hypergraph_failed_calls_partial`, `C19_hypergraph_failed_add_false`

**C20** (partial; `Props/DiGraphMatrices.lean`, `Props/GraphMessages.lean`)
* PCQ: `C20_digraph_in_range_false`, `C20_digraph_in_range_partial`, `C20_graph_in_range_false`, `C20_graph_in_range_partial`

**C21** (partial; `Props/BiGraphEdges.lean`, `Props/DiGraphEdges.lean`, `Props/GraphEdges2.lean`)
* PCQ: `C21_bigraph_weights_paired_false`, `C21_bigraph_weights_paired_partial`, `C21_digraph_weights_paired_false`, `C21_digraph_weights_paired_partial`, `C21_graph_weights_paired_false`, `C21_graph_weights_paired_partial`

**C22** (partial; `Props/DiGraphMatrices.lean`)
* PCQ: `C22_digraph_reverse_false`, `C22_digraph_reverse_edges_partial`, `C22_digraph_reverse_reads_partial`, `C22_digraph_reverse_twice`

**C23** (proved; `Props/DiGraphMatrices.lean`)
* PCQ: `C23_digraph_adjacency`, `C23_digraph_degrees`, `C23_digraph_neighbours`, `C23_digraph_edge_vectors`

**C24** (proved; `Props/DiGraphMatrices.lean`)
* PCQ: `C24_digraph_v2v_sum`, `C24_digraph_v2v_mean`, `C24_digraph_v2v_reversed`, `C24_digraph_v2v_bad_arguments`

**C25** (partial; `Props/BiGraphMatrices.lean`)
* PCQ: `C25_bigraph_readable`, `C25_bigraph_incidence`, `C25_bigraph_A_blocks`, `C25_bigraph_degrees`, `C25_bigraph_neighbours`, `C25_bigraph_edge_vectors`, `C25_bigraph_flag_false`

**C26** (partial; `Props/BiGraphMatrices.lean`)
* PCQ: `C26_bigraph_switch_edges_partial`, `C26_bigraph_switch_reads_partial`, `C26_bigraph_switch_twice_partial`, `C26_bigraph_switch_false`, `C26_bigraph_switch_twice_false`

**C27** (proved; `Props/BiGraphMatrices.lean`)
* PCQ: `C27_bigraph_sum`, `C27_bigraph_adjoint`, `C27_bigraph_mean`, `C27_bigraph_bad_aggregation`

**C28** (proved; `Props/BiGraphEdges.lean`, `Props/DiGraphEdges.lean`, `Props/GraphEdges2.lean`)
* PCQ: `C28_bigraph_from_adj_list`, `C28_digraph_from_adj_list`, `C28_graph_from_adj_list`

**C29** (partial; `Props/BiGraphEdges.lean`, `Props/DiGraphEdges.lean`)
* PCQ: `C29_bigraph_reads_fresh_partial`, `C29_bigraph_reads_do_not_interfere`, `C29_bigraph_clone_fresh_false`, `C29_digraph_fresh_false`, `C29_digraph_reads_fresh_partial`, `C29_digraph_reads_do_not_interfere_partial`

**C30** (partial; `Props/HyperEdges.lean`)
* PCQ: `C30_hypergraph_reads_fresh_partial`, `C30_hypergraph_reads_do_not_interfere`, `C30_hypergraph_reads_fresh_false`

**C31** (proved; `Props/HyperEdges.lean`)
* PCQ: `C31_hypergraph_hyperedge_map`, `C31_hypergraph_group_names`, `C31_hypergraph_no_copies`, `C31_hypergraph_vertex_order`

**C32** (partial; `Props/HyperEdges.lean`)
* PCQ: `C32_hypergraph_groups_isolated`, `C32_hypergraph_drop_isolated`, `C32_hypergraph_num_e`, `C32_hypergraph_remove_exactly`, `C32_hypergraph_unknown_group`, `C32_hypergraph_remove_group`, `C32_hypergraph_unknown_group_raises_false`

**C33** (partial; `Props/HyperMatrices.lean`)
* PCQ: `C33_hypergraph_H_partial`, `C33_hypergraph_group_order`, `C33_hypergraph_H_false`

**C34** (partial; `Props/HyperMatrices.lean`)
* PCQ: `C34_hypergraph_degrees_partial`, `C34_hypergraph_handshake`, `C34_hypergraph_inverses_partial`, `C34_hypergraph_Dv_neg_half_partial`, `C34_hypergraph_degree_groups`, `C34_hypergraph_degrees_false`

**C35** (partial; `Props/HyperMatrices.lean`)
* PCQ: `C35_hypergraph_nbr_e_partial`, `C35_hypergraph_nbr_v`, `C35_hypergraph_nbr_dual`, `C35_hypergraph_nbr_range`, `C35_hypergraph_nbr_e_false`

**C36** (partial; `Props/HyperMatrices.lean`)
* PCQ: `C36_hypergraph_L_HGNN_partial`, `C36_hypergraph_L_rw_partial`, `C36_hypergraph_laplacians_false`

**C37** (partial; `Props/HyperMessages.lean`)
* PCQ: `C37_hypergraph_v2e_partial`, `C37_hypergraph_e2v_partial`, `C37_hypergraph_e2v_mean_false`, `C37_hypergraph_v2v_is_composition`, `C37_hypergraph_v2v_mean_constant`, `C37_hypergraph_no_groups_false`

**C38** (proved; `Props/HyperMessages.lean`)
* PCQ: `C38_hypergraph_single_group`, `C38_hypergraph_group_alone`

**C39** (partial; `Props/HyperSubgraph.lean`)
* PCQ: `C39_hypergraph_sub_content`, `C39_hypergraph_sub_weights_partial`, `C39_hypergraph_sub_all`, `C39_hypergraph_sub_raises`, `C39_hypergraph_sub_weights_false`

**C40** (partial; `Props/ConvertGraphs.lean`)
* PCQ: `C40_clique_partial`, `C40_clique_source`, `C40_clique_miu_false`, `C40_clique_empty_false`

**C41** (partial; `Props/ConvertGraphs.lean`, `Props/ConvertHypers.lean`, `Props/ConvertWeights.lean`)
* PCQ: `C41_star_partial`, `C41_star_source`, `C41_star_empty_false`, `C41_bigraph_partial`, `C41_bigraph_source`, `C41_bigraph_empty_false`, `C41_from_bigraph`, `C41_roundtrip_partial`, `C41_add_from_bigraph`, `C41_add_from_bigraph_weights`

**C42** (proved; `Props/ConvertHypers.lean`, `Props/ConvertWeights.lean`)
* PCQ: `C42_khop`, `C42_khop_refused`, `C42_add_khop`, `C42_add_khop_weights`

**C43** (partial; `Props/ConvertHypers.lean`)
* PCQ: `C43_from_graph_partial`, `C43_from_graph_edges`, `C43_from_graph_source`, `C43_from_graph_false`, `C43_add_from_graph`

**C44** (partial; `Props/ConvertGraphs.lean`)
* PCQ: `C44_hypergcn_partial`, `C44_hypergcn_contributes_partial`, `C44_hypergcn_source`, `C44_hypergcn_pair_false`, `C44_hypergcn_tie_false`, `C44_hypergcn_single_false`

**C45** (partial; `Props/HyperSubgraph.lean`)
* PCQ: `C45_hypergraph_vertex_weights_partial`, `C45_hypergraph_sub_weights`, `C45_hypergraph_clone_false`, `C45_hypergraph_drop_state_false`, `C45_hypergraph_assign_false`, `C45_hypergraph_clear_false`

**C46** (partial; `Props/ArgLists.lean`)
* PCQ: `C46_hypergraph_argument_unchanged_partial`, `C46_hypergraph_others_unchanged`, `C46_hypergraph_argument_same_hyperedges`, `C46_hypergraph_same_call`, `C46_hypergraph_argument_unchanged_false`

**C47** (partial; `Props/Heap.lean`)
* PCQ: `C47_graph_state_dict_partial`, `C47_digraph_state_dict_partial`, `C47_bigraph_state_dict_partial`, `C47_hypergraph_state_dict_partial`, `C47_rebuilt_shares_nothing`, `C47_graph_snapshot_false`, `C47_digraph_snapshot_false`, `C47_bigraph_snapshot_false`, `C47_hypergraph_snapshot_false`, `C47_graph_mixed_false`

**C48** (proved; `Props/GraphRename.lean`, `Props/GraphRenameNn.lean`, `Props/NnGraph.lean`)
* PCQ: `C48_graph_v2v_equivariant`, `C48_graph_adjacency_equivariant`, `C48_graph_gcn_equivariant`, `C48_gcn_conv`, `C48_sage_conv`, `C48_gin_conv`, `C48_gat_conv`, `C48_graph_models`, `C48_gcn_model_equivariant`

**C49** (partial; `Props/ConvertHypers.lean`, `Props/ConvertWeights.lean`)
* PCQ: `C49_knn_partial`, `C49_knn_refused`, `C49_knn_own_false`, `C49_knn_count_false`, `C49_add_knn`, `C49_add_knn_weights`

**C50** (proved; `Props/UtilsStructure.lean`)
* PCQ: `C50_numbering_injective`, `C50_numbering_unique`, `C50_remap_edge_list`, `C50_remap_edge_list_bipartite`, `C50_remap_edge_list_bipartite_raises`, `C50_remap_edge_lists`, `C50_remap_edge_lists_bipartite`

**C51** (proved; `Props/UtilsStructure.lean`)
* PCQ: `C51_round_trip_perm`, `C51_adjacency_lines`
* PQ: `C51_round_trip_per_source`

**C52** (partial; `Props/UtilsStructure.lean`)
* PCQ: `C52_remap_adj_list_partial`, `C52_remap_adj_list_false`, `C52_remap_adj_list_bipartite_partial`, `C52_remap_adj_list_bipartite_false`, `C52_remap_adj_lists_partial`

**C53** (partial; `Props/UtilsSplit.lean`)
* PCQ: `C53_split_by_num_disjoint`, `C53_split_by_num_counts_partial`, `C53_split_by_num_gap_false`, `C53_split_by_num_negative_false`
* PQ: `C53_split_by_num_single_false`

**C54** (partial; `Props/UtilsSplit.lean`)
* PCQ: `C54_split_by_ratio_disjoint`, `C54_split_by_ratio_counts_partial`, `C54_split_by_ratio_raises`, `C54_split_by_ratio_gap_false`, `C54_split_by_ratio_negative_false`
* PQ: `C54_split_by_ratio_single_false`

**C55** (proved; `Props/UtilsData.lean`)
* PCQ: `C55_split_by_num_UI`, `C55_split_by_ratio_UI`

**C56** (proved; `Props/UtilsData.lean`)
* PCQ: `C56_training_triplet`, `C56_training_triplet_strict`, `C56_no_negative_never_returns`, `C56_test_record`, `C56_length`, `C56_phase_checked`

**C57** (proved; `Props/UtilsData.lean`)
* PCQ: `C57_binomial`, `C57_binomial_outside`

**C58** (proved; `Props/UtilsData.lean`)
* PQ: `C58_sparse_dropout`, `C58_sparse_dropout_entry`, `C58_sparse_dropout_zero`, `C58_sparse_dropout_raises`

**C59** (proved; `Props/BuildEval.lean`)
* PCQ: `C59_accepts`, `C59_unknown_task`, `C59_validate_classification`, `C59_test_classification`, `C59_validate_recommender`, `C59_unknown_parameter`, `C59_test_recommender`

**C60** (partial; `Props/MetricsRank.lean`)
* PCQ: `C60_precision`, `C60_recall`, `C60_precision_recall_consistent`, `C60_precision_recall_range`, `C60_precision_recall_total`, `C60_precision_recall_raises`, `C60_ndcg`, `C60_negative_k_false`

**C61** (partial; `Props/MetricsAp.lean`)
* PCQ: `C61_average_precision_partial`, `C61_average_precision_range`, `C61_map_mrr_rows`, `C61_reciprocal_rank_partial`, `C61_pr_curve_rows`, `C61_pr_curve_mean`, `C61_pr_curve_partial`, `C61_ap_topk_false`, `C61_rr_false`, `C61_pr_curve_topk_false`
* PQ: `C61_k_ignored`

**C62** (partial; `Props/Evaluator.lean`)
* PCQ: `C62_validate_epoch`, `C62_validate_repeat`, `C62_test_epoch`, `C62_test_nothing_added`, `C62_whole_is_mean_of_batches`, `C62_validate_partition`, `C62_test_partition`, `C62_same_dictionary`, `C62_classification_batches_false`, `C62_returned_result_changes_false`, `C62_batch_without_relevant_false`, `C62_equal_markers_false`, `C62_validate_curve_false`

**C63** (proved; `Props/Classification.lean`)
* PCQ: `C63_predictions`, `C63_accuracy`, `C63_accuracy_raises`, `C63_accuracy_range`, `C63_accuracy_reorder`, `C63_confusion_matrix`

**C64** (partial; `Props/BiGraphEdges.lean`, `Props/DiGraphEdges.lean`)
* PCQ: `C64_bigraph_edge_set`, `C64_digraph_edge_set_partial`, `C64_digraph_stored_edge_set`

**C65** (proved; `Props/BiGraphMatrices.lean`)
* PCQ: `C65_bigraph_LGCN`

**C66** (proved; `Props/Smoothing.lean`)
* PCQ: `C66_smoothing`, `C66_smoothing_raises`, `C66_smoothing_shape`, `C66_graph_smoothing_laplacian`

**C67** (partial; `Props/Device.lean`)
* P: `C67_graph_hops_false`, `C67_digraph_edgeless_false`, `C67_bigraph_laplacian_false`, `C67_bigraph_smoothing_false`, `C67_bigraph_edgeless_false`, `C67_hypergraph_move_false`, `C67_hypergraph_group_false`, `C67_hypergraph_add_false`, `C67_hypergraph_smoothing_false`
* PCQ: `C67_graph_on_device`, `C67_graph_to`, `C67_graph_messages`, `C67_digraph_on_device_partial`, `C67_digraph_messages_partial`, `C67_bigraph_on_device_partial`, `C67_bigraph_messages_partial`, `C67_hypergraph_edges_on_device`, `C67_hypergraph_never_elsewhere_partial`, `C67_hypergraph_moved_first_partial`

**C68** (partial; `Props/Bgnn.lean`)
* PCQ: `C68_bgnn`, `C68_bgnn_range`, `C68_channels`, `C68_training`, `C68_influence_false`

**C69** (partial; `Props/Seed.lean`)
* PCQ: `C69_reproducible`, `C69_seed`, `C69_libraries`, `C69_last`, `C69_refused_false`, `C69_experiment_partial`, `C69_experiment_false`

**C70** (proved; `Props/Random.lean`)
* PCQ: `C70_graph_Gnp`, `C70_digraph_Gnp`, `C70_bigraph_Gnp`, `C70_uniform_hypergraph_Gnp`, `C70_prob_zero`, `C70_prob_one`, `C70_refuses`

**C71** (partial; `Props/Random.lean`, `Props/RandomHyper.lean`)
* PCQ: `C71_graph_Gnm`, `C71_graph_Gnm_refuses`, `C71_graph_Gnm_complete_false`, `C71_graph_Gnm_returns_partial`, `C71_digraph_Gnm`, `C71_digraph_Gnm_refuses`, `C71_digraph_Gnm_complete_false`, `C71_digraph_Gnm_returns_partial`, `C71_bigraph_Gnm`, `C71_bigraph_Gnm_refuses`, `C71_bigraph_Gnm_returns`, `C71_uniform_hypergraph_Gnm`, `C71_uniform_hypergraph_Gnm_overfull_false`, `C71_uniform_hypergraph_Gnm_too_large`, `C71_uniform_hypergraph_Gnm_refuses`, `C71_uniform_hypergraph_Gnm_returns`, `C71_hypergraph_Gnm`, `C71_hypergraph_Gnm_overfull_false`, `C71_hypergraph_Gnm_no_error`

**C72** (partial; `Props/RandomHyper.lean`)
* PCQ: `C72_graph_Gnp_fast_partial`, `C72_digraph_Gnp_fast_partial`, `C72_prob_one_false`, `C72_prob_zero_false`

**C73** (proved; `Props/RandomHyper.lean`)
* PCQ: `C73_custom_sizes`, `C73_refuses`

**C74** (proved; `Props/RandomFeature.lean`)
* PCQ: `C74_normal_features`, `C74_rank`, `C74_no_noise`, `C74_refuses`

**C75** (partial; `Props/Feature.lean`)
* PCQ: `C75_euclidean_partial`, `C75_poincare_partial`, `C75_animations_partial`, `C75_dim_raises`, `C75_same_direction_false`

**C76** (partial; `Props/Feature.lean`)
* PCQ: `C76_poincare_partial`, `C76_clip`, `C76_inverse`, `C76_scale`, `C76_raises`, `C76_same_direction_false`

**C77** (partial; `Props/StdLog.lean`)
* P: `C77_refused`
* PCQ: `C77_file_partial`, `C77_other_files`
* PQ: `C77_terminal`, `C77_twice_false`

**C78** (partial; `Props/Task.lean`)
* PCQ: `C78_training`, `C78_selection`, `C78_testing`, `C78_best`, `C78_test`, `C78_report_partial`, `C78_report_false`

**C79** (partial; `Props/RecTask.lean`)
* PCQ: `C79_validate`, `C79_users`, `C79_test_partial`, `C79_device_false`, `C79_training`, `C79_no_structure_false`, `C79_interrupted_false`, `C79_leak_false`

**C80** (proved; `Props/Download.lean`)
* PCQ: `C80_verified`, `C80_existing`, `C80_corrupted_deleted`, `C80_other_files`

**C81** (partial; `Props/Download.lean`)
* PCQ: `C81_requests`, `C81_recovers_partial`, `C81_fresh`, `C81_retries`, `C81_gives_up`, `C81_outside_cache_false`, `C81_next_call_false`, `C81_refused`

**C82** (partial; `Props/Data.lean`)
* PCQ: `C82_raw_then`, `C82_get_then`, `C82_parsed_once`, `C82_unknown`, `C82_plain`, `C82_parsed_verified`, `C82_failure`, `C82_none_false`, `C82_custom_root_false`

**C83** (partial; `Props/Datapipe.lean`)
* PCQ: `C83_norm_direction`, `C83_norm_zero_rows`, `C83_norm_default`, `C83_norm_pow`, `C83_norm_one`, `C83_norm_inf`, `C83_norm_other_false`, `C83_scaler`, `C83_scaler_constant_false`
* PQ: `C83_scaler_range`
* none: `C83_compose`

**C84** (partial; `Props/Experiment.lean`)
* PCQ: `C84_maximize`, `C84_pruned`, `C84_config`, `C84_minimize_false`, `C84_no_score_false`

**C85** (partial; `Props/Experiment.lean`)
* PCQ: `C85_removal`, `C85_run`, `C85_all_pruned_false`, `C85_minimize_false`

**C86** (partial; `Props/Loader.lean`)
* PQ: `C86_txt`, `C86_txt_no_newline`, `C86_blank_false`, `C86_txt_errors`, `C86_txt_names`, `C86_pickle`

**C87** (partial; `Props/Study.lean`)
* PCQ: `C87_overwrite`, `C87_continue_partial`, `C87_same_second_false`, `C87_shared_log_false`
* PQ: `C87_no_root`, `C87_none_false`

**C88** (proved; `Props/HyperRename.lean`, `Props/HyperRenameNn.lean`)
* PCQ: `C88_hypergraph_listing`, `C88_hypergraph_incidence`, `C88_hypergraph_laplacians`, `C88_hypergraph_messages`, `C88_hgnn_conv`, `C88_hgnnp_conv`, `C88_hnhn_conv`, `C88_unisage_conv`, `C88_unigin_conv`, `C88_unigcn_conv`, `C88_jh_conv`, `C88_unigat_conv`, `C88_hypergraph_models`

**C89** (proved; `Props/TwoUniform.lean`)
* PCQ: `C89_degrees`, `C89_laplacians`, `C89_clique_round_trip`

**C90** (partial; `Props/GraphRenameNn.lean`, `Props/NnGraph.lean`)
* PCQ: `C90_gat_average_partial`, `C90_gcn_conv`, `C90_gin_conv`, `C90_sage_conv`, `C90_gat_conv_partial`, `C90_gat_single_false`

**C91** (partial; `Props/HyperRenameNn.lean`, `Props/NnHyper.lean`)
* PCQ: `C91_unigat_average_partial`, `C91_hgnn_conv_partial`, `C91_jh_conv_partial`, `C91_hgnnp_conv_partial`, `C91_hnhn_conv_partial`, `C91_unisage_conv_partial`, `C91_unigin_conv_partial`, `C91_unigin_conv_false`, `C91_unigcn_conv_partial`, `C91_unigcn_conv_false`, `C91_unigat_conv_partial`, `C91_unigat_single_false`, `C91_hypergcn_conv_cached`, `C91_hypergcn_conv_partial`, `C91_hypergraph_unchanged`

**C92** (partial; `Props/NnLoss.lean`)
* PCQ: `C92_bpr_value`, `C92_bpr_positive`, `C92_bpr_monotone_partial`, `C92_bpr_softplus_false`, `C92_bpr_arguments`

**C93** (partial; `Props/NnLoss.lean`)
* PCQ: `C93_reg_value`, `C93_reg_nonneg_partial`, `C93_reg_nonneg_false`, `C93_reg_scale`

**C94** (proved; `Props/ModelParts.lean`)
* PCQ: `C94_mlp_rowwise`, `C94_mlp_refuses`, `C94_multi_head`
* PQ: `C94_no_heads`

**C95** (partial; `Props/Vis.lean`)
* PCQ: `C95_fill_sizes`, `C95_fill_strength`, `C95_fill_color_partial`, `C95_fill_color_false`, `C95_layout_partial`, `C95_bipartite_layout_partial`, `C95_layout_false`, `C95_font_size_false`

**C96** (partial; `Props/Recommend.lean`)
* PCQ: `C96_lightgcn`, `C96_lightgcn_local`, `C96_ngcf`, `C96_dhcf_partial`, `C96_layer_norms`

**C97** (partial; `Props/Models.lean`, `Props/Recommend.lean`)
* PCQ: `C97_graph_models`, `C97_hypergraph_models`, `C97_hypergcn_partial`, `C97_hypergcn_fast_false`, `C97_recommenders`

**C98** (partial; `Props/Vis.lean`)
* PCQ: `C98_polar_angle`, `C98_tangent`, `C98_exists_partial`, `C98_outlines`, `C98_rings_differ`, `C98_close_false`, `C98_draw_graph`, `C98_draw_bigraph`, `C98_labels_false`, `C98_labels`

**C99** (partial; `Props/Vis.lean`)
* PCQ: `C99_moves_bounded`, `C99_determined`, `C99_edge_centre`, `C99_bipartite_false`

