{
 "claims": [
  {
   "property": "C01",
   "status": "proved",
   "theorems": [
    "C01_crp",
    "C01_categorical",
    "C01_bernoulli",
    "C01_normal",
    "C01_normalUC",
    "C01_poisson"
   ],
   "note": ""
  },
  {
   "property": "C02",
   "status": "proved",
   "theorems": [
    "C02_observe",
    "C02_unobserve",
    "C02_other",
    "C02_keys_distinct"
   ],
   "note": ""
  },
  {
   "property": "C03",
   "status": "proved",
   "theorems": [
    "C03_observe",
    "C03_unobserve",
    "C03_setHypers",
    "C03_setParams"
   ],
   "note": ""
  },
  {
   "property": "C04",
   "status": "proved",
   "theorems": [
    "C04_unobserve_observe",
    "C04_value_returned"
   ],
   "note": "A CRP keeps the integer part of the observed number, so the returned value is the kept one."
  },
  {
   "property": "C05",
   "status": "proved",
   "theorems": [
    "C05_crp"
   ],
   "note": ""
  },
  {
   "property": "C06",
   "status": "proved",
   "theorems": [
    "C06_support",
    "C06_observe",
    "C06_simulate",
    "C06_held"
   ],
   "note": ""
  },
  {
   "property": "C07",
   "status": "proved",
   "theorems": [
    "C07_gibbs"
   ],
   "note": ""
  },
  {
   "property": "C08",
   "status": "proved",
   "theorems": [
    "C08_categorical"
   ],
   "note": ""
  },
  {
   "property": "C09",
   "status": "proved",
   "theorems": [
    "C09_bernoulli"
   ],
   "note": ""
  },
  {
   "property": "C10",
   "status": "proved",
   "theorems": [
    "C10_poisson"
   ],
   "note": ""
  },
  {
   "property": "C11",
   "status": "proved",
   "theorems": [
    "C11_normal",
    "C11_normalUC"
   ],
   "note": ""
  },
  {
   "property": "C12",
   "status": "proved",
   "theorems": [
    "C12_chain_rule"
   ],
   "note": ""
  },
  {
   "property": "C13",
   "status": "proved",
   "theorems": [
    "C13_fresh",
    "C13_sequence"
   ],
   "note": ""
  },
  {
   "property": "C14",
   "status": "proved",
   "theorems": [
    "C14_exchangeable"
   ],
   "note": ""
  },
  {
   "property": "C15",
   "status": "partial",
   "theorems": [
    "C15_observe_missing",
    "C15_logpdf_missing_partial",
    "C15_violated_bernoulli",
    "C15_violated_poisson"
   ],
   "note": "Observing a missing value is proved harmless for every class. logpdf of a missing value is 0 for Categorical, Normal and NormalUC; the code violates the claim for Bernoulli and Poisson, where it is -inf."
  },
  {
   "property": "C16",
   "status": "proved",
   "theorems": [
    "C16_score",
    "C16_logpdf",
    "C16_logpdf_missing"
   ],
   "note": ""
  },
  {
   "property": "C17",
   "status": "proved",
   "theorems": [
    "C17_crp",
    "C17_categorical",
    "C17_bernoulli",
    "C17_held"
   ],
   "note": ""
  },
  {
   "property": "C18",
   "status": "proved",
   "theorems": [
    "C18_setHypers"
   ],
   "note": "For NormalUC get_hypers may contain further, unrelated keys given to the constructor; the four named entries are read back."
  },
  {
   "property": "C19",
   "status": "partial",
   "theorems": [
    "C19_grids",
    "C19_linreg_partial",
    "C19_linreg_violated"
   ],
   "note": "Proved for CRP, Categorical, Bernoulli, Normal and Poisson, and for LinearRegression with data. Violated by LinearRegression without data: its grids hold NaN, which set_hypers rejects."
  },
  {
   "property": "C20",
   "status": "proved",
   "theorems": [
    "C20_round_trip",
    "C20_same_answers"
   ],
   "note": ""
  },
  {
   "property": "C21",
   "status": "proved",
   "theorems": [
    "C21_factorises",
    "C21_sum",
    "C21_other_blocks"
   ],
   "note": ""
  },
  {
   "property": "C22",
   "status": "proved",
   "theorems": [
    "C22_inverse",
    "C22_unobserve"
   ],
   "note": ""
  },
  {
   "property": "C23",
   "status": "proved",
   "theorems": [
    "C23_normalised"
   ],
   "note": "Models without inputs, of any depth; for a mixture with a mixture inside a component, on values of positive density there."
  },
  {
   "property": "C24",
   "status": "proved",
   "theorems": [
    "C24_marginal"
   ],
   "note": "Same scope as C23."
  },
  {
   "property": "C25",
   "status": "proved",
   "theorems": [
    "C25_conditional",
    "C25_total",
    "C25_positive"
   ],
   "note": "Same scope as C23; holds for every composite, not only mixtures."
  },
  {
   "property": "C26",
   "status": "proved",
   "theorems": [
    "C26_component",
    "C26_logpdf",
    "C26_simulate",
    "C26_rejected"
   ],
   "note": "Models of any depth built without inputs. C26_logpdf also shows that a cluster value among the targets of a held row is ignored."
  },
  {
   "property": "C27",
   "status": "proved",
   "theorems": [
    "C27_flexible",
    "C27_finite"
   ],
   "note": ""
  },
  {
   "property": "C28",
   "status": "proved",
   "theorems": [
    "C28_accepts",
    "C28_inverse"
   ],
   "note": ""
  },
  {
   "property": "C29",
   "status": "proved",
   "theorems": [
    "C29_chain_rule"
   ],
   "note": ""
  },
  {
   "property": "C30",
   "status": "proved",
   "theorems": [
    "C30_queries",
    "C30_logpdf_draws_nothing"
   ],
   "note": ""
  },
  {
   "property": "C31",
   "status": "partial",
   "theorems": [
    "C31_violated",
    "C31_finite_partial",
    "C31_flexible_partial"
   ],
   "note": "False of the code: the divider keeps the row when a component rejects it. Proved: nothing changes when the divider rejects the cluster."
  },
  {
   "property": "C32",
   "status": "partial",
   "theorems": [
    "C32_finite_violated",
    "C32_flexible_violated",
    "C32_observe_partial"
   ],
   "note": "False of the code for logpdf and simulate, proved for every mixture of any depth; observe of a finite mixture does hand the inputs on."
  },
  {
   "property": "C33",
   "status": "partial",
   "theorems": [
    "C33_violated",
    "C33_partial"
   ],
   "note": "False of the code: the score of every finite mixture raises. Proved for flexible mixtures of any depth."
  },
  {
   "property": "C34",
   "status": "partial",
   "theorems": [
    "C34_exact_partial",
    "C34_total_partial",
    "C34_zero_violated",
    "C34_normalUC_violated"
   ],
   "note": "Models without inputs. False for N=0 on mixtures (one sample) and for NormalUC on a held row (no list): both negations proved."
  },
  {
   "property": "C35",
   "status": "partial",
   "theorems": [
    "C35_sorted",
    "C35_violated"
   ],
   "note": "False of the code: the samples of every mixture come sorted by cluster and Product zips them; the negation is proved for every product of mixtures."
  },
  {
   "property": "C36",
   "status": "proved",
   "theorems": [
    "C36_walk",
    "C36_references",
    "C36_found"
   ],
   "note": "Models without Chain built by Product, FiniteRowMixture and FlexibleRowMixture to any depth (Tidy). References are modelled as objects with a put-back function."
  },
  {
   "property": "C37",
   "status": "proved",
   "theorems": [
    "C37_remove",
    "C37_block",
    "C37_absent",
    "C37_last",
    "C37_finite_violated"
   ],
   "note": "For products and flexible mixtures (of flexible mixtures …) of products, of any depth, that have another block left. For finite mixtures, outside the statement, C37_finite_violated shows that the rows are lost."
  },
  {
   "property": "C38",
   "status": "proved",
   "theorems": [
    "C38_add",
    "C38_copies",
    "C38_undo"
   ],
   "note": "For products and flexible mixtures of any depth and an empty new column: outputs, cells, copies in every cluster, and remove_cgpm gives back exactly the old model."
  },
  {
   "property": "C39",
   "status": "proved",
   "theorems": [
    "C39_transition_rows"
   ],
   "note": "Models of any depth built without inputs. Moved also says that, with the row taken out, both models answer every call alike, which covers the hyperparameters."
  },
  {
   "property": "C40",
   "status": "proved",
   "theorems": [
    "C40_conditional",
    "C40_joint"
   ],
   "note": "C40_conditional: any mixture, weights are the conditional densities of the row. C40_joint: flexible mixtures (the score of a finite mixture raises, C33), weights are exp of the joint score. Both need that nothing is held under the row id None."
  },
  {
   "property": "C41",
   "status": "proved",
   "theorems": [
    "C41_join",
    "C41_own",
    "C41_join_succeeds",
    "C41_own_succeeds",
    "C41_identical",
    "C41_equal_ids_violated"
   ],
   "note": "r0 and r1 are compared with `is`; C41_equal_ids_violated shows that equal ids that are not one object lose the row."
  },
  {
   "property": "C42",
   "status": "proved",
   "theorems": [
    "C42_data",
    "C42_sync",
    "C42_sync_full",
    "C42_succeeds",
    "C42_own_grids",
    "C42_normalUC_fails",
    "C42_set_hypers"
   ],
   "note": "C42_normalUC_fails: NormalUC builds no grids, so a transition over its own grids always raises."
  },
  {
   "property": "C43",
   "status": "proved",
   "theorems": [
    "C43_step",
    "C43_single",
    "C43_full"
   ],
   "note": "C43_step is the law of each step of the loop from any current hyperparameters; C43_single composes it with the loop for the classes with one hyperparameter."
  },
  {
   "property": "C44",
   "status": "partial",
   "theorems": [
    "C44_set_existing",
    "C44_set_singleton_partial",
    "C44_transition_partial",
    "C44_rows_violated"
   ],
   "note": "Proved whenever the call returns: the same columns, cells, clusters, no view without columns; the rows of the views stay the same when columns move to an existing view, and, for a new view, when every row has a value in one of the moved columns. Violated otherwise (C44_rows_violated): a new view only gets the rows with a value in the column. When the call returns is C93."
  },
  {
   "property": "C45",
   "status": "proved",
   "theorems": [
    "C45_existing",
    "C45_singleton",
    "C45_transition"
   ],
   "note": "Whenever the call returns; C93 says when it does."
  },
  {
   "property": "C46",
   "status": "proved",
   "theorems": [
    "C46_sequence"
   ],
   "note": "All kernels, transition() with any schedule (through the modelled transition_generic) and all setters of GibbsCrossCat; the calls that move columns are given columns of the CrossCat. Alignment of the rows at the end is proved for tables without missing cells (see C44_rows_violated for the others)."
  },
  {
   "property": "C47",
   "status": "proved",
   "theorems": [
    "C47_sweeps",
    "C47_default",
    "C47_time",
    "C47_zero_violated"
   ],
   "note": "The loop is a relation between start and outcome, since it need not end; the theorems include that it ends and has one outcome. C47_zero_violated: N = 0 raises instead of running no sweep."
  },
  {
   "property": "C48",
   "status": "proved",
   "theorems": [
    "C48_blocks"
   ],
   "note": "The set of assignments may be enumerated in any order."
  },
  {
   "property": "C49",
   "status": "proved",
   "theorems": [
    "C49_categorical",
    "C49_normal"
   ],
   "note": "The sorted set of values is any enumeration of it."
  },
  {
   "property": "C50",
   "status": "proved",
   "theorems": [
    "C50_row_partition"
   ],
   "note": ""
  },
  {
   "property": "C51",
   "status": "partial",
   "theorems": [
    "C51_import_partial",
    "C51_numbered",
    "C51_realised_partial"
   ],
   "note": "Proved whenever the call returns, for every answer of the engine and every enumeration order of the set of numbers: the cells are kept, the columns are grouped as X_L says, the k-th entry of X_D describes the view of the k-th number in the enumeration order (the number k when the numbers are 0,...,n-1 in order). C51_realised_partial: it does return, for every answer with partitions of the columns and rows, if the integers drawn for new cluster variables do not clash (C94_import_violated: it raises otherwise)."
  },
  {
   "property": "C52",
   "status": "partial",
   "theorems": [
    "C52_partial",
    "C52_violated"
   ],
   "note": "Violated: with neither N nor S the function raises AssertionError. The other three cases are proved."
  },
  {
   "property": "C53",
   "status": "proved",
   "theorems": [
    "C53_args",
    "C53_unequal",
    "C53_all_absent",
    "C53_observe_bulk",
    "C53_observe_bulk_no_inputs",
    "C53_unobserve_bulk",
    "C53_logpdf_bulk"
   ],
   "note": "When every argument is None the call raises IndexError."
  },
  {
   "property": "C54",
   "status": "proved",
   "theorems": [
    "C54_observe",
    "C54_unobserve",
    "C54_transition",
    "C54_logpdf_score",
    "C54_logpdf",
    "C54_simulate",
    "C54_logpdf_heterogeneous",
    "C54_heterogeneous_rejects",
    "C54_observe_raises"
   ],
   "note": "parallel_map works on copies and returns results in order (external)."
  },
  {
   "property": "C55",
   "status": "proved",
   "theorems": [
    "C55_columns",
    "C55_rows"
   ],
   "note": ""
  },
  {
   "property": "C56",
   "status": "proved",
   "theorems": [
    "C56",
    "C56_rejects"
   ],
   "note": ""
  },
  {
   "property": "C57",
   "status": "proved",
   "theorems": [
    "C57_terms",
    "C57",
    "C57_answers"
   ],
   "note": "numpy.mean and numpy.var are modelled on extended reals."
  },
  {
   "property": "C58",
   "status": "partial",
   "theorems": [
    "C58_partial",
    "C58_violated",
    "C58_type_error"
   ],
   "note": "Violated: whenever some variable is to be marginalised the call raises. Proved without such variables."
  },
  {
   "property": "C59",
   "status": "proved",
   "theorems": [
    "C59_partition",
    "C59_law"
   ],
   "note": "The random state is a stream of draws; C59_law is the chance over the draw made for each number, given the draws before it."
  },
  {
   "property": "C60",
   "status": "partial",
   "theorems": [
    "C60_rows_partial",
    "C60_clusters_partial",
    "C60_violated",
    "C60_missing_violated"
   ],
   "note": "Violated: cluster numbers are read at the sorted position of the row in the unsorted list (C60_violated), and a row without data cells makes the call raise (C60_missing_violated). Rows and data are right whenever every row has a cell; cluster numbers are right when rows were observed in the order of their tables."
  },
  {
   "property": "C61",
   "status": "proved",
   "theorems": [
    "C61_reindex",
    "C61_sorted"
   ],
   "note": ""
  },
  {
   "property": "C62",
   "status": "proved",
   "theorems": [
    "C62_key"
   ],
   "note": ""
  },
  {
   "property": "C63",
   "status": "proved",
   "theorems": [
    "C63_accepted"
   ],
   "note": "The set of tables may be enumerated in any order."
  },
  {
   "property": "C64",
   "status": "proved",
   "theorems": [
    "C64_code",
    "C64_injective",
    "C64_rejects",
    "C64_accepts",
    "C64_fraction",
    "C64_forest_code",
    "C64_forest_injective",
    "C64_forest_rejects",
    "C64_forest_accepts"
   ],
   "note": "Regression and forest. C64_fraction: numbers between 0 and levels-1 that are not whole are rejected or, between the last two levels, coded as the reference level."
  },
  {
   "property": "C65",
   "status": "partial",
   "theorems": [
    "C65_violated",
    "C65_partial",
    "C65_forest_violated"
   ],
   "note": "Violated: unobserve always raises TypeError. C65_partial says what it leaves behind."
  },
  {
   "property": "C66",
   "status": "proved",
   "theorems": [
    "C66"
   ],
   "note": "Rows whose value and inputs are all present (C80)."
  },
  {
   "property": "C67",
   "status": "proved",
   "theorems": [
    "C67",
    "C67_conditional",
    "C67_raises"
   ],
   "note": "Stronger than the statement: any row in which the members find their inputs, with or without constraints. cgpm.network.helpers is external, with the contract NetworkOk."
  },
  {
   "property": "C68",
   "status": "partial",
   "theorems": [
    "C68_violated",
    "C68_partial"
   ],
   "note": "False of the code for a CRP divider; proved for Categorical and Bernoulli dividers."
  },
  {
   "property": "C69",
   "status": "proved",
   "theorems": [
    "C69_rows_interchangeable"
   ],
   "note": ""
  },
  {
   "property": "C70",
   "status": "proved",
   "theorems": [
    "C70_cluster"
   ],
   "note": "Models without inputs, of any depth."
  },
  {
   "property": "C71",
   "status": "proved",
   "theorems": [
    "C71_blocks"
   ],
   "note": "Models without inputs, of any depth."
  },
  {
   "property": "C72",
   "status": "proved",
   "theorems": [
    "C72_get_rowids"
   ],
   "note": ""
  },
  {
   "property": "C73",
   "status": "partial",
   "theorems": [
    "C73_partial",
    "C73_violated"
   ],
   "note": "False of the code: numbers that are not whole are written with four decimals. Proved: the error is at most half a ten-thousandth, and none for multiples of a ten-thousandth."
  },
  {
   "property": "C74",
   "status": "partial",
   "theorems": [
    "C74_clusters_partial",
    "C74_cells_partial",
    "C74_violated"
   ],
   "note": "Violated: every cell is attributed to the last row. The cluster numbers are right; the rendered cells are the right ones apart from the row."
  },
  {
   "property": "C75",
   "status": "proved",
   "theorems": [
    "C75_dataset",
    "C75_column"
   ],
   "note": ""
  },
  {
   "property": "C76",
   "status": "partial",
   "theorems": [
    "C76_partial",
    "C76_violated",
    "C76_bulk_violated"
   ],
   "note": "Violated: with multiprocess, the default of the bulk calls, the random states advance in the copies only and the next call returns the same samples. Proved in the same process."
  },
  {
   "property": "C77",
   "status": "proved",
   "theorems": [
    "C77"
   ],
   "note": ""
  },
  {
   "property": "C78",
   "status": "proved",
   "theorems": [
    "C78"
   ],
   "note": "As existence of a continuous density that agrees with logpdf at every rational value."
  },
  {
   "property": "C79",
   "status": "proved",
   "theorems": [
    "C79"
   ],
   "note": ""
  },
  {
   "property": "C80",
   "status": "partial",
   "theorems": [
    "C80_violated",
    "C80_partial"
   ],
   "note": "Violated: one missing value makes every later answer NaN. C80_partial: answers are finite exactly when all rows are complete."
  },
  {
   "property": "C81",
   "status": "partial",
   "theorems": [
    "C81_violated",
    "C81_partial",
    "C81_forest"
   ],
   "note": "Violated for a regression with its own prior mean or covariance. Proved for the default ones, and for forests (pickling is taken to be faithful)."
  },
  {
   "property": "C82",
   "status": "proved",
   "theorems": [
    "C82"
   ],
   "note": ""
  },
  {
   "property": "C83",
   "status": "partial",
   "theorems": [
    "C83_violated",
    "C83_partial"
   ],
   "note": "Violated before the first transition: every value has probability zero. Proved after a successful transition. scikit-learn is external, with the contract FitOk."
  },
  {
   "property": "C84",
   "status": "partial",
   "theorems": [
    "C84_samples",
    "C84_law",
    "C84_untrained",
    "C84_zero_violated"
   ],
   "note": "Violated for N = 0, which raises AssertionError; and before the first transition samples are uniform while logpdf is -inf (C83). The rest is proved."
  },
  {
   "property": "C85",
   "status": "proved",
   "theorems": [
    "C85",
    "C85_no_rows"
   ],
   "note": "scikit-learn is external."
  },
  {
   "property": "C86",
   "status": "partial",
   "theorems": [
    "C86",
    "C86_primitive",
    "C86_regression",
    "C86_inputs_violated"
   ],
   "note": "Proved when no variable is both in the row and among the inputs. Otherwise observe lets the given input win and logpdf the value in the row (C86_inputs_violated). Forests have no score."
  },
  {
   "property": "C87",
   "status": "partial",
   "theorems": [
    "C87_violated",
    "C87_partial"
   ],
   "note": "Violated with regressions: their exception is swallowed, the value is lost and the score raises from then on. Proved for chains of primitives."
  },
  {
   "property": "C88",
   "status": "proved",
   "theorems": [
    "C88",
    "C88_simple",
    "C88_composite",
    "C88_exact"
   ],
   "note": "The ancestral order is proved for accuracy 1, the number and the variables of the samples for any accuracy and constraints."
  },
  {
   "property": "C89",
   "status": "proved",
   "theorems": [
    "C89_table_kept"
   ],
   "note": "Whenever transition_cpp returns. The three kernels of GibbsCrossCat that use it are among the steps of C46_sequence."
  },
  {
   "property": "C90",
   "status": "partial",
   "theorems": [
    "C90_table",
    "C90_violated"
   ],
   "note": "Violated for a column that is neither Normal nor Categorical: for every such CrossCat the call raises AssertionError. Proved, with success, for the others."
  },
  {
   "property": "C91",
   "status": "partial",
   "theorems": [
    "C91_state",
    "C91_violated"
   ],
   "note": "Violated for a categorical column with missing values only, where the call raises. Proved, with success, for the others."
  },
  {
   "property": "C92",
   "status": "proved",
   "theorems": [
    "C92_round_trip",
    "C92_returns_partial"
   ],
   "note": "Whenever the call returns; C92_returns_partial: it returns, under the conditions of C94; sets of the numbers 0..n-1 are assumed to be enumerated in order, as CPython does (C51 describes the other orders)."
  },
  {
   "property": "C93",
   "status": "partial",
   "theorems": [
    "C93_existing",
    "C93_singleton_partial",
    "C93_singleton_violated",
    "C93_transition_partial",
    "C93_transition_violated"
   ],
   "note": "Proved without condition for a move to an existing view. Violated for a new view when the integer drawn for its cluster variable is in use (proved to return otherwise), and for the transition of columns of a view after the 257th (proved to return for all others, if none of the first integers of the random state is in use; their number is bounded by the views, columns and rows)."
  },
  {
   "property": "C94",
   "status": "partial",
   "theorems": [
    "C94_import_partial",
    "C94_transition_partial",
    "C94_import_violated"
   ],
   "note": "Proved if the integers drawn for the cluster variables of new views differ from each other and from all variables. Violated otherwise: the import raises when the first integer drawn is in use."
  },
  {
   "property": "C95",
   "status": "partial",
   "theorems": [
    "C95_step_partial",
    "C95_kernel_partial",
    "C95_step_violated",
    "C95_kernel_violated"
   ],
   "note": "Proved if no value of a Bernoulli or Poisson column is missing and no row has the id None. Violated for a missing value in such a column when the view has another row: for every such CrossCat and random state the step raises and the row is lost, and the kernel raises."
  },
  {
   "property": "C96",
   "status": "proved",
   "theorems": [
    "C96_types",
    "C96_rows"
   ],
   "note": "For the steps of C46_sequence, including the kernels with the C++ engine and any answer."
  },
  {
   "property": "C97",
   "status": "partial",
   "theorems": [
    "C97_init",
    "C97_rows_partial",
    "C97_sequence_partial"
   ],
   "note": "Proved for columns other than NormalUC, without missing values of Bernoulli and Poisson columns (C95_kernel_violated); for calls that move columns between views also: at most 257 columns and distinct unused integers in the random state (C93_transition_violated), with an explicit bound on how many integers matter."
  },
  {
   "property": "C98",
   "status": "proved",
   "theorems": [
    "C98_random",
    "C98_together",
    "C98_returns",
    "C98_returns_constrained",
    "C98_history",
    "C98_default"
   ],
   "note": "Inference programs are any that make a GibbsCrossCat, call its methods (the steps of C46) and return its CrossCat; the default program is one (C98_default). C98_returns: the ensemble is made if the integers drawn as cluster variables are distinct and unused. C98_together: what dependence constraints mean is left to simulate_crp_constrained, which is outside the repository; its assignment is what the views realise."
  },
  {
   "property": "C99",
   "status": "partial",
   "theorems": [
    "C99_crosscat",
    "C99_observe",
    "C99_unobserve",
    "C99_infer_partial"
   ],
   "note": "The statements on observe and unobserve are proved in full. Inference: missing values of Bernoulli and Poisson columns and a row with the id None are excluded (C95_kernel_violated)."
  },
  {
   "property": "C100",
   "status": "proved",
   "theorems": [
    "C100_score",
    "C100_logpdf",
    "C100_positive",
    "C100_conditional",
    "C100_simulate"
   ],
   "note": "Rows that are not in the table; targets and constraints are columns (queries about cluster variables: C25, C34, C70). N=0 is excluded (C34_zero_violated)."
  },
  {
   "property": "C101",
   "status": "proved",
   "theorems": [
    "C101_values",
    "C101_simulate",
    "C101_observe"
   ],
   "note": "C101_values: models of any depth; the others: ensembles after any history."
  },
  {
   "property": "C102",
   "status": "partial",
   "theorems": [
    "C102_mutual_information",
    "C102_rejects",
    "C102_violated"
   ],
   "note": "Proved for ensembles without a row with the id None (the row that queries ask about) and without variables to marginalise, for which the call raises in every state (C102_violated)."
  },
  {
   "property": "C103",
   "status": "partial",
   "theorems": [
    "C103_column",
    "C103_column_pairwise",
    "C103_row",
    "C103_row_pairwise",
    "C103_unknown_row",
    "C103_violated"
   ],
   "note": "Proved in full for columns and for rows with a value in the column asked about; C103_violated: a row given only values in other views raises KeyError."
  },
  {
   "property": "C104",
   "status": "proved",
   "theorems": [
    "C104_simulate",
    "C104_simulate_bulk",
    "C104_logpdf_bulk",
    "C104_rejects",
    "C104_evaluate"
   ],
   "note": "logpdf_heterogeneous: C54_logpdf_heterogeneous. Row ids of simulate_heterogeneous are integers in the model."
  },
  {
   "property": "C105",
   "status": "partial",
   "theorems": [
    "C105_loads",
    "C105_same_answers",
    "C105_violated",
    "C105_load_raises"
   ],
   "note": "Answers are the same in full. Loading returns if an ensemble of the same arguments can be made (C105_loads), and may raise otherwise (C105_load_raises). The chains of a loaded ensemble share their random state (C105_violated). Loading in several processes, where each worker gets a copy of the random state."
  },
  {
   "property": "C106",
   "status": "partial",
   "theorems": [
    "C106_law_partial",
    "C106_independent_partial",
    "C106_chain_partial",
    "C106_draws_exist"
   ],
   "note": "For targets that are CRP, Categorical or Bernoulli outputs or cluster variables; the constraints may be of any type. Missing: Normal and Poisson targets (the numpy samplers are arbitrary numbers in the model), rows that hold data, N > 1 (samples of a mixture come sorted by cluster, C35_violated). Arithmetic is exact; the uniform variates are independent."
  },
  {
   "property": "C107",
   "status": "proved",
   "theorems": [
    "C107_view",
    "C107_crosscat"
   ],
   "note": "A view is a flexible mixture over a product of primitives with a CRP divider, as in CrossCat. Arithmetic is exact."
  },
  {
   "property": "C108",
   "status": "proved",
   "theorems": [
    "C108_clusterings",
    "C108_conditional",
    "C108_row",
    "C108_sweep"
   ],
   "note": "The entries of the random stream are independent draws with a uniform part (product measure). Hypotheses: no missing value in Bernoulli or Poisson columns, no row with id None. Arithmetic is exact. Hyperparameters are fixed."
  },
  {
   "property": "C109",
   "status": "proved",
   "theorems": [
    "C109_rate",
    "C109_limit"
   ],
   "note": "One view, all of its rows swept in random order each time; hyperparameters fixed. Hypotheses as for C108: no missing value in Bernoulli or Poisson columns, no row with id None. Arithmetic is exact."
  },
  {
   "property": "C110",
   "status": "proved",
   "theorems": [
    "C110_keeps",
    "C110_rate"
   ],
   "note": "The entries of the random stream are independent draws with a uniform part (product measure). The grids have the hyperparameter names as keys, in the order in which the class reports them, as those built by construct_hyper_grids do. NormalUC builds no grids (C42). Arithmetic is exact."
  },
  {
   "property": "C111",
   "status": "proved",
   "theorems": [
    "C111_converts",
    "C111_bernoulli_violated"
   ],
   "note": "A state of cgpm is modelled by what is read of it (dims, crp, Zr, X). Each dimension has one output and legal hyperparameters, every row of a view has a value of its type (or NaN) in every column of the view, and all variables are different. The part about Bernoulli columns is stated for all states whose first view has one after columns of the known classes."
  },
  {
   "property": "C112",
   "status": "proved",
   "theorems": [
    "C112_ast"
   ],
   "note": "Same states as C111. convert_cgpm_state_to_ast itself always raises TypeError, because it calls convert_cgpm_state_to_cgpm2 without rng; the theorem is about the two steps it is meant to compose."
  },
  {
   "property": "C113",
   "status": "proved",
   "theorems": [
    "Cgpm2.Props.C113_init",
    "Cgpm2.Props.C113_states",
    "Cgpm2.Props.C113_transition"
   ],
   "note": "For a fixed assignment of columns to views; the kernel view_assignments is not included (C115). Missing values of Bernoulli and Poisson columns are excluded, as logpdf raises on them."
  },
  {
   "property": "C114",
   "status": "proved",
   "theorems": [
    "Cgpm2.Props.C114_rate",
    "Cgpm2.Props.C114_limit"
   ],
   "note": "For a fixed assignment of columns to views, and calls without restriction to columns or rows."
  },
  {
   "property": "C115",
   "status": "partial",
   "theorems": [
    "Cgpm2.Props.C115_move",
    "Cgpm2.Props.C115_existing",
    "Cgpm2.Props.C115_alone",
    "Cgpm2.Props.C115_alone_violated"
   ],
   "note": "One column per call. C115_move takes the new views that were proposed as given, and gives the chances of the existing views next to them; the law of the new views themselves (their identifiers and clusters are random) is missing, so nothing is said about the distribution that the whole kernel keeps. C115_alone_violated refutes the proportionality for a column alone in its view."
  },
  {
   "property": "C116",
   "status": "proved",
   "theorems": [
    "Cgpm2.Props.C116_parses",
    "Cgpm2.Props.C116_rounds",
    "Cgpm2.Props.C116_empty_violated",
    "Cgpm2.Props.C116_decimals_violated"
   ],
   "note": "Numbers with four decimals come back exactly, others within 1/20000 (so a small hyperparameter can come back as zero: C116_decimals_violated). The AST without views, excluded, raises TypeError. yaml.load is modelled for block mappings, block sequences and plain scalars; keys that are YAML words for truth values or None are not distinguished."
  },
  {
   "property": "C117",
   "status": "proved",
   "theorems": [
    "Cgpm2.Props.C117_interprets",
    "Cgpm2.Props.C117_decimals_violated",
    "Cgpm2.Props.C117_unknown_violated"
   ],
   "note": "The hypotheses are needed: a scale of 0.000049, which generate_random_ast can make, is written as zero and raises AssertionError; Bernoulli columns raise KeyError. The layout of the Python text of the embedded program is not modelled, only the constructor calls in it."
  },
  {
   "property": "C118",
   "status": "proved",
   "theorems": [
    "Cgpm2.Props.C118_script",
    "Cgpm2.Props.C118_emptied_violated",
    "Cgpm2.Props.C118_bare_violated",
    "Cgpm2.Props.C118_bernoulli_violated"
   ],
   "note": "The statement is proved where it holds and refuted by witnesses where it does not. The program is the list of its entries; its layout and the rounding of numbers to four decimals are not modelled, nor is what VentureScript does with the makers. Which row the data cells are written for is C74."
  },
  {
   "property": "C119",
   "status": "proved",
   "theorems": [
    "Cgpm2.Props.C119_generates",
    "Cgpm2.Props.C119_builds",
    "Cgpm2.Props.C119_clash_violated",
    "Cgpm2.Props.C119_exhausted_violated",
    "Cgpm2.Props.C119_unknown_violated"
   ],
   "note": "The statement is proved where it holds and refuted where it does not. rng.gamma(1, 1) is an arbitrary function of one draw; round(x, 6) is exact. The law of the partition is C59; that small gamma variates break interpret_ast is C117_decimals_violated."
  },
  {
   "property": "C120",
   "status": "proved",
   "theorems": [
    "Cgpm2.Props.C120_round_trip",
    "Cgpm2.Props.C120_same_answers",
    "Cgpm2.Props.C120_queries"
   ],
   "note": "cgpm.network.helpers is an arbitrary function of the outputs and inputs of the members, which may raise. Members are primitives and composites (Built); what a regression or forest loses when it is saved is C81."
  },
  {
   "property": "C121",
   "status": "proved",
   "theorems": [
    "Cgpm2.Props.C121_logpdf",
    "Cgpm2.Props.C121_score",
    "Cgpm2.Props.C121_crp_violated",
    "Cgpm2.Props.C121_normalUC_violated",
    "Cgpm2.Props.C121_array_violated"
   ],
   "note": "The statement is proved where it holds and refuted by witnesses where it does not. pprint, which __repr__ calls, is external. Rendering of regressions and forests is not modelled."
  },
  {
   "property": "C122",
   "status": "proved",
   "theorems": [
    "Cgpm2.Props.C122_logpdf",
    "Cgpm2.Props.C122_conditional",
    "Cgpm2.Props.C122_updates",
    "Cgpm2.Props.C122_simulate",
    "Cgpm2.Props.C122_row_violated",
    "Cgpm2.Props.C122_zero_violated"
   ],
   "note": "The statement is proved where it holds and refuted by witnesses where it does not. The network functions (topological order and required inputs) are described by NetworkOk as in C67. A member with variables among both targets and constraints is tidy in the sense of C25. Samples are compared for members that return what they are asked for (C88_simple, C88_composite)."
  }
 ]
}
