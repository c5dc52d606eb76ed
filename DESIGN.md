# Formal model of probcomp/cgpm2 in Lean 4

## 1. Shape of the model

Shallow embedding.  Each Python function becomes a Lean function, branch by branch, in
`lean/Verif/Model/`, with a comment citing file and lines.  Small separate specifications live in
`lean/Verif/Spec/`, helper lemmas in `lean/Verif/Lemmas/`, and the property theorems in
`lean/Verif/Props/`, each beside an `example` that meets its hypotheses with a concrete non-trivial
object.  `properties.jsonl` holds the English properties, `MANIFEST.json` the theorems for each of
them, `seeded/LOG.jsonl` the edits of the model the theorems were tested with.

* **Mutation and exceptions.**  `Py S α` is the type of a Python method on a mutable object of class
  `S`: a function from the state before the call to the state after the call together with either a
  result or an exception.  The state survives an exception, so partially executed methods are
  visible.  Exceptions are values of `Err` (one constructor per Python exception class).
* **Values.**  `Val` is `nan` or a rational (every finite double is rational).  Infinite data values
  are not modelled.  Variables are integers, row ids are integers or None.
* **Numbers.**  Hyperparameters are reals, data are rationals, stored statistics are exact.
  Logarithms, gamma functions and densities are exact reals (Mathlib).  Results of `logpdf` are
  `Fl`: `nan`, `-inf`, `+inf` or a real, with the IEEE rules for infinities.  Rounding is not
  modelled.  C11 and C78, about integrals, state that a continuous density exists that agrees with
  `logpdf` at every rational value and integrates to one.
* **Dictionaries** are association lists in insertion order.  Where Python enumerates a `set` or a
  plain `dict` in an order of its own, that order is a parameter of the model (`unique`, `ordered`,
  `Orders`), and the theorems hold for every such order; C77 says that the order of the entries of
  the dictionaries passed to a model does not matter.
* **Randomness.**  A random state is an infinite stream of draws, each a real `u` and a rational `x`;
  every draw of the program takes one entry.  Theorems quantify over all streams.  `pflip` and
  `log_pflip` invert the cumulative sums of the weights at `u`, `rng.randint` scales `u`, samplers of
  numbers return `x`; permutations are drawn entry by entry.  C17, C59, C70 and C84 are about the
  measure of the set of draws that lead to a value; C106 and C108 take the product measure on whole streams; the
  other properties hold for every stream.
* **Composites.**  The class hierarchy is an interface record `Iface S`.  Product, FiniteArray,
  FlexibleArray, FiniteRowMixture and FlexibleRowMixture are functions from interfaces to interfaces;
  `Cgpm n` is the tower of nesting depth `n`, and theorems about composites hold at every depth, by
  induction.  Chain, LinearRegression and RandomForest have models of their own outside the tower.
* **Histories.**  `Built` (any constructor calls and any later calls, including rejected ones) and
  `Tidy` (histories in which every cell is observed with its row, including `remove_cgpm`, `add_cgpm`
  and the transitions) are inductive types of histories; the properties are proved of every state
  they reach.  A theorem that needs a restriction on the questions asked states it with `Query`,
  `Askable` or `SimQuery`.
* **Object identity.**  Value semantics: objects shared between two composites in Python are copies
  in the model.  Where sharing can be observed it is modelled: the references found by the walks come
  with a function that puts the changed object back (`Walks`), the view proposals that share the row
  divider with the view they are made from change both (`share`), row ids compared with `is` carry
  a parameter that says whether they are the same object, and small integers are one object
  (`sameInt`).  `inputs.pop` on a dictionary of the caller is not visible to the caller in the model.

## 2. Trusted base

* Lean's kernel and the axioms `propext`, `Classical.choice`, `Quot.sound`: these are the axioms each
  theorem of the manifest depends on (or a subset; printed for every theorem by the audit of the
  gate).  No own axioms, no `sorry`, no `native_decide`, no `bv_decide`.
* The model's fidelity to the Python text, by the citations.
* External helpers, not in the repository, modelled from their documented behaviour:
  * `cgpm.utils.general`: `get_intersection`, `merged`, `mergedl` (TypeError on None, AssertionError
    on a common key), `lchain`, `flatten_cgpms`, `build_cgpm`, `simulate_many`, `log_pflip`, `pflip`,
    `logsumexp`, `log_normalize`, `log_linspace`, `get_prng`.
  * `parallel_map`: an order-preserving map that works on copies of its arguments.
  * `cgpm.network.helpers` (Chain): contract `NetworkOk` (a topological order of the members).
  * `numpy`: `mean` and `var` on `Fl`; `linalg` on exact matrices, singular matrices raise ValueError;
    `choice`, `randint`, `permutation` as above; `bincount`.
  * `scipy.special.gammaln x` is `log (Γ x)` for `x > 0`; `math.log` raises for non-positive
    arguments.
  * `scikit-learn` (RandomForest): contract `FitOk`; an unfitted classifier raises AttributeError.
  * `yaml`: block mappings, block sequences and plain scalars, told apart by indentation.  `exec` runs the
    constructor calls of the embedded program.  Strings are lists of characters; `%d`, `%1.4f` are modelled.
  * The C++ engine `LocalEngine.analyze` is an arbitrary function of what it is given, or raises (`Engine`).
  * `time.time`: a stream of clock values.

## 3. What is modelled

| file | model | not modelled |
|------|-------|--------------|
| crp, categorical, bernoulli, normal, normal_uc, poisson, distribution | `Model/Crp`, `Categorical`, `Bernoulli`, `Normal`, `NormalUC`, `Poisson`, `Prim`, `Distribution`, `Printed` | the constant methods `is_*` |
| product, finite_array, flexible_array, finite_rowmix, flexible_rowmix, icgpm | `Model/Iface`, `Product`, `Arrays`, `RowMix`, `Loops`, `Cgpm`, `Printed` | `transition` (does nothing) |
| walks | `Model/Walks` | |
| transition_rows, transition_hypers, transition_views, transition_crosscat, progress | `Model/TransitionRows`, `TransitionHypers`, `TransitionViews`, `TransitionCrosscat`, `Progress` | printing of the progress bar |
| transition_crosscat_cpp | `Model/CppCrosscat`, `CppUpdate`, `CppTransition` | the engine itself |
| crosscat_ensemble | `Model/Ensemble`, `Model/EnsembleInit`, `Model/EnsembleQueries` (`simulate_crp_constrained`, `rng.gamma` and `get_prng` are parameters, contract `SaneOutside`) | `from_metadata` in one process (the chains would share one random state object) |
| sample_crosscat | `Model/CoreDsl`, `CoreText`, `CoreEmbedded`, `Render`, `RandomPartition`, `RandomAst`, `Venture` | layout of the printed Python and VentureScript programs, four-decimal rounding in the latter |
| conversion | `Model/Conversion`, `Model/Render` | trees of chains |
| entropy, linreg, forest, chain | `Model/Entropy`, `LinReg`, `Forest`, `Chain`, `ChainMeta` (network helpers are a parameter), `Printed` | `render` of regressions and forests |

Not modelled at all: floating-point rounding and overflow, infinite data values, multiprocessing
beyond the contract of `parallel_map`, pickling, plotting, logging.

## 4. Plan, property by property

| id | what is modelled | how it is proved |
|----|-------|--------|
| C01-C04 | six primitive classes | invariant by induction on call lists; refinement to a partial map; closed forms of observe and unobserve |
| C05-C09 | predictive formulas over the reals | algebra with `Real.exp_log`, list sums; the Gibbs weights of C07 by counting tables |
| C10, C11 | gamma functions, integrals | negative binomial series; Student-t and Gaussian integrals |
| C12-C14 | closed-form scores | functional equation of Γ, induction on the data, permutation invariance |
| C15, C16 | missing values, numeric branches | positivity invariants, Cauchy-Schwarz for Normal; refutation with a witness for Bernoulli and Poisson |
| C17, C70 | simulate | measure of the draws that give a value |
| C18, C19 | hyperparameters and grids | case analysis, positivity of the grids |
| C20, C68, C81 | metadata records | round trip, lifted through the tower |
| C21, C22, C71 | Product | induction on the component list |
| C23-C29, C69 | mixtures, any depth | laws of densities (`Laws`), list-sum algebra, bookkeeping invariant |
| C30, C77 | any composite | relation "equal up to empty clones", preserved by all calls; permutation of dictionaries |
| C31-C35 | mixtures and products | refutation with a reachable witness, and the positive part |
| C36-C38, C72, C75 | walks | induction over the structure, table abstraction of a model |
| C39-C41 | row transitions | relation `Moved` between states that differ in the cluster of one row; weights as conditionals |
| C42, C43 | hyper transitions | loop invariants over lists of references |
| C44-C46 | views, GibbsCrossCat | invariant `CC` of CrossCats with its table; relation `Kin`, preserved by every kernel |
| C96 | types of columns, rows | `Kin` also relates the types of the bases of the views and their rows |
| C47 | progress loop | relation with fuel, clock as a stream |
| C48-C52 | C++ bridge | list lemmas; C51 composes C41 and C45 along the loops |
| C93 | when moves of columns return | every observe of the move is run symbolically: the cells have a legal value for the base of the new view, and variables are fresh |
| C94 | when the import and a whole transition_cpp return | induction over the blocks of columns and rows with the invariant of C51; a count of the random numbers used bounds the integers that must not clash |
| C95 | when Gibbs steps on rows return | the densities of C25 are finite on legal values, so the weights of the step are positive; the row fits every cluster (C28) |
| C97 | when inference returns | an invariant that each kernel re-establishes: the table (C46), the types of columns (C96), and legal grids for all hyperparameters; a bound on the random numbers each kernel takes |
| C89-C92 | transition_cpp as a whole, with an arbitrary engine | `Kin` (C46); closed forms of the exported dicts; C51 |
| C53-C55, C76 | ensemble | list lemmas |
| C98 | the life of an ensemble | the CrossCat made from any partition is a `CC` without rows; every call of the ensemble carries the `CC` and the user's ledger of cells on (C22, C46, C96) |
| C99 | what an ensemble accepts | observations are run symbolically through the views, clusters and primitives, in both directions; C97 for inference |
| C100 | answers of an ensemble | every chain is a `CC` after any calls (C98); the density and sampling laws of C25 and C34 need no more than that; types of columns give positivity |
| C101 | simulated values | a law on the values of `simulate` for primitives, products and mixtures, by induction on the depth; composed with C99 |
| C102 | mutual information after any history | the laws of C56 to C58 hold for every chain (C98) |
| C103 | structure queries after any history | every chain is a `CC`: the views are those of C55, the rows of a view are related to the ledger |
| C104 | heterogeneous queries | the list of jobs is the list of queries; C54 for the mapper |
| C105 | saving and loading | C20 for every chain; the constructor call that `from_metadata` makes first is kept as a hypothesis and refuted by a witness |
| C106 | simulate follows logpdf | `HasChance`: the event that a run hits the values and leaves the rest of the stream in a measurable set has the product probability (`Measure.infinitePi` over the stream, shift-invariance); closed under one choice (`pflip`), products and mixtures, by induction on the depth |
| C107 | what the score depends on | the score of a view as a sum over clusters and columns of scores of the held values; a bijection of labels permutes the sum |
| C108 | Gibbs on rows keeps the posterior | one step is a choice among the clusters of the view without the row, with weights that are differences of scores (C29); up to relabelling the outcomes are the clusterings that agree on the other rows, so the step resamples within a class; a mean over orders of such steps keeps the weights |
| C109 | sweeps converge | every order of the rows can rebuild any clustering row by row (invariant: the rows done are clustered as in the target, alone), so a sweep reaches every class with positive chance; a positive stochastic matrix over finitely many classes contracts (minorisation) |
| C110 | hypers target the grid posterior | one step is a mean over the grid of one name (C43); exchanging a coordinate of a point with a new value for it is a symmetry of the sum over the product of the grids, so the step keeps the weights; a mean over orders of such steps; positivity coordinate by coordinate |
| C111, C112 | conversion of a state of cgpm | the loop over the rows is run symbolically (C63 gives the seats, C99 the acceptance by the component); the table laws of `observe` give the cells, C27 the clusters |
| C113, C114 | `transition` keeps, and converges to, the joint posterior of clusters and hyperparameters | a kernel on a part of the state (the clusters of a view, the hyperparameters of a column) that keeps the conditional distribution of the part keeps the joint one (`Lens`, `Move`); C108 and C110 give the parts, `Move.lift` puts a view back into the CrossCat; every sweep settles each part in turn, so it reaches every state; then the contraction of C109 |
| C115 | chances of the moves of a column between existing views | the score of a view is the sum of the scores of its primitives (`view_score`); taking a column out and observing it elsewhere changes the sum by the terms of that column only (`moved_score`), so log-weight of the choice and score of the result differ by a constant; the chance of `log_pflip` does the rest. A column alone in its view takes the clusters of the rows away with it: `C115_alone` |
| C116, C117 | text of the Core DSL, the program made from it | the text is a list of marks with columns (`Lines`); a block of marks is read as one node whatever follows to the left of it (`Reads`), closed under mappings and sequences; running the constructor calls is the conversion of C111 without rows |
| C118 | entries of the VentureScript program | the sorted tables, the reindexed rows and the transposed products are all described by the rank of the cluster among the sorted clusters (`table_ok`, `view_ok`); the entries of the columns are distinct because the columns are and the names are (`render_ok`) |
| C119 | random ASTs | the loops are followed draw by draw (`dividers_ok`, `primitives_ok`): the position of each hyperparameter in the stream of draws is explicit; soundness of the AST feeds C117 |
| C120 | saving and loading a chain, purity of its queries | `ChainE` relates two chains whose members answer alike (C20, C30); every method respects it (`Py.Rel`), queries stay within it (`Py.Keeps`); the network is recomputed from outputs and inputs, which no call changes |
| C121 | `render` | equal renderings are taken apart class by class (`primAlike_logpdf`), products part by part (`PrintedAlike`, `Py.Rel.each`); three witnesses for what the rendering leaves out |
| C122 | `Chain.logpdf`, `Product.logpdf` | C67 gives the chain's answer as a sum over the members, C21 the product's; term by term they are the same call when no input is in the row; with constraints the terms of the constrained members cancel, for mixtures by C25; samples: the ancestral draw of C88 is the product's loop when no member has parents |
| C56-C58 | entropy | decision logic; C21 |
| C59, C61-C63, C73 | DSL, conversion | list and string lemmas; measure of draws |
| C60, C74 | rendering of views | table abstraction, refutations with witnesses |
| C64-C66, C78-C80, C82 | linear regression | matrices over the reals (rank-one updates, determinants), Student-t integral |
| C83-C85 | random forest | contract of the classifier |
| C67, C86-C88 | Chain | induction on the topological order |

The theorems and their scope are in `MANIFEST.json`.

## 5. Defects of the code found while modelling

For each, the negation of the property is proved with a concrete reachable witness, or for all
states; the `_partial` theorem of the property states what does hold.

| theorem | defect |
|---------|--------|
| C15_violated_bernoulli, C15_violated_poisson | logpdf of a missing value is -inf |
| C19_linreg_violated | grids of a regression without data hold NaN |
| C31_violated | a rejected observe leaves the row in the divider of a mixture |
| C32_finite_violated, C32_flexible_violated | logpdf and simulate of a mixture drop the inputs of the components |
| C33_violated | the score of a finite mixture raises |
| C34_zero_violated, C34_normalUC_violated | N = 0 gives one sample; NormalUC returns no list for a held row |
| C35_violated | samples of a mixture come sorted by cluster, and Product zips them |
| C37_finite_violated | remove_cgpm on a finite mixture loses the rows |
| C41_equal_ids_violated | row ids are compared with `is`; equal ids that are not one object lose the row |
| C42_normalUC_fails | NormalUC builds no grids, so hyper transitions on it raise |
| C44_rows_violated | a new view only gets the rows that have a value in the moved column |
| C47_zero_violated | N = 0 raises instead of running no sweep |
| C52_violated | transition_cpp with neither N nor S raises |
| C58_violated | mutual_information with variables to marginalise raises |
| C60_violated, C60_missing_violated | rendered cluster numbers are read at the wrong position; a row without cells raises |
| C65_violated, C65_forest_violated | unobserve of a regression or a forest raises |
| C68_violated | a finite mixture divided by a CRP cannot be rebuilt from its metadata |
| C73_violated | hyperparameters are written with four decimals |
| C74_violated | VentureScript rendering attributes every cell to the last row |
| C76_violated, C76_bulk_violated | with other processes, successive simulate calls return the same samples |
| C80_violated | one missing value makes every later answer of a regression NaN |
| C81_violated | metadata of a regression lose the prior mean and covariance |
| C83_violated, C84_zero_violated | an untrained forest gives every value probability zero; N = 0 raises |
| C93_singleton_violated | the cluster variable of a new view is a random integer; if it is in use, the move raises |
| C93_transition_violated | positions of views are compared with `is not`: columns of a view after the 257th cannot be resampled |
| C94_import_violated | the import raises when the integer drawn for a new cluster variable is in use |
| C95_step_violated, C95_kernel_violated | a missing value in a Bernoulli or Poisson column has density zero in every cluster: the Gibbs step on its row raises after taking the row out |
| C90_violated | transition_cpp raises when a column is neither Normal nor Categorical |
| C91_violated | transition_cpp raises when a categorical column has missing values only |
| C102_violated | mutual_information of an ensemble with a variable to marginalise raises in every state |
| C103_violated | get_same_assignment_row raises KeyError for a row of the table that has no value in the view |
| C105_violated | all chains of a loaded ensemble have the same random state |
| C105_load_raises | from_metadata first makes a random ensemble and throws it away; if that raises, the saved one cannot be loaded |
| C111_bernoulli_violated | a state of cgpm with a Bernoulli column cannot be converted |
| C116_empty_violated | the Core DSL of an AST without views cannot be parsed |
| C116_decimals_violated, C117_decimals_violated | hyperparameters are sampled with six decimals and written with four: small ones become zero, and the program built from the AST fails |
| C118_emptied_violated | no VentureScript program is rendered after all rows have been unobserved: `get_crp_tables_weights` returns the number 0 for the list of tables |
| C118_bare_violated, C118_bernoulli_violated | nor with a row without cells, nor with a Bernoulli column |
| C119_clash_violated, C119_exhausted_violated, C119_unknown_violated | with more than 100000 columns a row divider has the number of a column; after 900000 views the iterator ends; Bernoulli columns are unknown |
| C121_crp_violated, C121_normalUC_violated, C121_array_violated | the printed form leaves out the names of the tables of a CRP, the sufficient statistics of NormalUC, and the base of a flexible array |
| C122_zero_violated | a chain raises ValueError for a constraint with probability zero, a product of the same members ignores a constraint on a member without targets |
| C122_row_violated | a chain takes the value of an exogenous input from the row of targets, a product of the same members does not and raises |
| C117_unknown_violated | an AST with a Bernoulli column cannot be interpreted |
| C115_alone_violated | a column alone in its view: the score of the row clusters of the view that would disappear is left out of the weights, so the moves do not follow the scores of the results (leaving it out is right only in a sampler whose reverse move draws the row clusters of a new view from their CRP prior) |
| C86_inputs_violated | a variable both in the row and among the inputs is treated differently by observe and logpdf |
| C87_violated | unobserve on a chain with a regression loses the value |

Other observations, not stated as theorems: the column CRP prior is left out of the weights of
`transition_cgpm_view_assigments`; `_get_crosscat_updated` pairs the
blocks of columns with `X_D` in the order in which Python enumerates a set (C51);
`convert_cgpm_state_to_ast` always raises TypeError, since it leaves out the argument `rng`.
