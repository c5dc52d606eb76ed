{"id": "C01", "title": "Sufficient statistics always describe exactly the held rows", "statement": "After any history of observe/unobserve/set_hypers calls on a CRP, Categorical, Bernoulli, Normal, NormalUC or Poisson (including calls that raise), what get_suffstats() (or, for NormalUC, the statistics used by logpdf_score) reports equals what one gets by recomputing the count, per-value counts and sums from scratch over the rows currently held; no table count is ever zero or negative.", "quantifier": "every primitive, every constructor argument, every finite sequence of method calls with every argument", "why_tests_cant": "The statistics are updated incrementally; a drift shows only on particular interleavings of observes, failing calls and unobserves.", "anchors": ["src/crp.py:CRP.observe", "src/crp.py:CRP.unobserve", "src/categorical.py:Categorical.observe", "src/bernoulli.py:Bernoulli.observe", "src/normal.py:Normal.observe", "src/normal_uc.py:NormalUC.observe", "src/poisson.py:Poisson.observe"]}
{"id": "C02", "title": "A primitive is a partial map from row ids to values", "statement": "observe(r,{o:v}) on a primitive succeeds only if r is not held and v is legal for the distribution; afterwards r holds v (as an int where the class stores ints). unobserve(r) succeeds exactly when r is held, returns {o: held value} and drops r. No other row is affected by either call, and set_hypers never changes a row.", "quantifier": "every primitive, state reachable by any call history, row id, value", "why_tests_cant": "Needs all call histories; tests exercise one or two rows in one order.", "anchors": ["src/distribution.py:DistributionCGPM.observe", "src/distribution.py:DistributionCGPM.unobserve", "src/crp.py:CRP.observe", "src/categorical.py:Categorical.observe", "src/poisson.py:Poisson.observe"]}
{"id": "C03", "title": "A rejected observe or unobserve on a primitive changes nothing", "statement": "If observe, unobserve or set_hypers on a CRP, Categorical, Bernoulli, Normal, NormalUC or Poisson raises, then the object is exactly as before the call.", "quantifier": "every primitive state, every argument", "why_tests_cant": "Quantifies over all states and all illegal arguments; partial updates hide behind the exception.", "anchors": ["src/distribution.py:DistributionCGPM.observe", "src/categorical.py:Categorical.observe", "src/crp.py:CRP.observe"]}
{"id": "C04", "title": "unobserve undoes observe exactly", "statement": "On a primitive, observe(r, {o:v}) followed by unobserve(r) returns {o: v} and leaves every attribute (data order, counts, sums) equal to what it was before, in exact arithmetic.", "quantifier": "every primitive state, new row id and legal value", "why_tests_cant": "Incremental updates have to cancel for every state, including the creation and deletion of table entries.", "anchors": ["src/crp.py:CRP.unobserve", "src/categorical.py:Categorical.unobserve", "src/normal.py:Normal.unobserve", "src/poisson.py:Poisson.unobserve"]}
{"id": "C05", "title": "CRP predictive distribution is normalised on its support", "statement": "For every CRP with positive alpha reached by any history, the numbers exp(logpdf(None,{z:k})) for k in support() are positive and sum to 1, and logpdf is -inf for every integer outside support().", "quantifier": "every history, every alpha > 0", "why_tests_cant": "An identity over all seating histories.", "anchors": ["src/crp.py:CRP.logpdf", "src/crp.py:CRP.support", "src/crp.py:calc_predictive_logp"]}
{"id": "C06", "title": "CRP support is the occupied tables plus one fresh table", "statement": "support() is strictly increasing, contains every occupied table, and has exactly one more element, which is not occupied; observe accepts a table exactly when it is in support(); for an unobserved row simulate returns an element of support(); for an observed row simulate returns its table and logpdf is 0 on it and -inf elsewhere.", "quantifier": "every history, row id, table, random outcome", "why_tests_cant": "Must hold for all sets of occupied tables, including ones with gaps.", "anchors": ["src/crp.py:CRP.support", "src/crp.py:CRP.observe", "src/crp.py:CRP.simulate"]}
{"id": "C07", "title": "CRP Gibbs proposal weights account for all the probability mass", "statement": "For an observed row and any number m>=1 of auxiliary tables, gibbs_logps returns one finite log weight per table of gibbs_tables, the weights exponentiate to numbers summing to (N-1)+alpha, where N counts all rows; the tables are distinct and include all tables occupied by other rows, whose weight is the number of other rows there.", "quantifier": "every history, observed row, m >= 1, alpha > 0", "why_tests_cant": "Depends on whether the row is a singleton, on gaps in table numbering and on m.", "anchors": ["src/crp.py:CRP.gibbs_logps", "src/crp.py:CRP.gibbs_tables", "src/crp.py:CRP.is_singleton"]}
{"id": "C08", "title": "Categorical predictive distribution is normalised", "statement": "For every Categorical(k>=1) with alpha>0 reached by any history, exp(logpdf(None,{o:x})) for x = 0..k-1 are positive and sum to 1; logpdf is -inf for every other number and 0 for a missing value (nan).", "quantifier": "every history, k, alpha", "why_tests_cant": "An identity over all count vectors.", "anchors": ["src/categorical.py:Categorical.logpdf", "src/categorical.py:calc_predictive_logp"]}
{"id": "C09", "title": "Bernoulli predictive distribution is normalised", "statement": "For every Bernoulli with positive hyperparameters reached by any history, exp(logpdf) at 0 and 1 are positive and sum to 1, and logpdf is -inf at every other number.", "quantifier": "every history, alpha, beta", "why_tests_cant": "An identity over all counts.", "anchors": ["src/bernoulli.py:Bernoulli.logpdf", "src/bernoulli.py:calc_predictive_logp"]}
{"id": "C10", "title": "Poisson predictive distribution is normalised", "statement": "For every Poisson with positive hyperparameters reached by any history, the series of exp(logpdf(None,{o:x})) over x = 0,1,2,... converges to 1, and logpdf is -inf at every number that is not a natural number.", "quantifier": "every history, a, b > 0, all x", "why_tests_cant": "An infinite series.", "anchors": ["src/poisson.py:Poisson.logpdf", "src/poisson.py:calc_predictive_logp"]}
{"id": "C11", "title": "Normal predictive density integrates to one", "statement": "For every Normal and NormalUC reached by any history, exp(logpdf(None,{o:x})) is a positive function of x whose integral over the real line is 1.", "quantifier": "every history, every legal hyperparameter or parameter", "why_tests_cant": "An integral over the reals.", "anchors": ["src/normal.py:calc_predictive_logp", "src/normal_uc.py:NormalUC.logpdf"]}
{"id": "C12", "title": "Chain rule: the score grows by the predictive logpdf", "statement": "For every collapsed primitive and legal non-missing value v: logpdf_score() after observe(r,{o:v}) equals logpdf_score() before plus logpdf(r,{o:v}) before.", "quantifier": "every history, every row id not held, every legal value", "why_tests_cant": "Relates two closed formulas (gamma functions) in every state.", "anchors": ["src/crp.py:calc_logpdf_marginal", "src/categorical.py:calc_logpdf_marginal", "src/bernoulli.py:calc_logpdf_marginal", "src/normal.py:calc_logpdf_marginal", "src/normal_uc.py:NormalUC.logpdf_score", "src/poisson.py:calc_logpdf_marginal"]}
{"id": "C13", "title": "Score is the sequential predictive probability of the data", "statement": "For a fresh primitive and any list of rows that it accepts in that order, logpdf_score() at the end equals the sum of the logpdf values each row had just before it was observed; in particular a primitive with no rows has score 0.", "quantifier": "every list of rows and legal values", "why_tests_cant": "Induction over arbitrary data sets.", "anchors": ["src/crp.py:CRP.logpdf_score", "src/normal.py:Normal.logpdf_score", "src/poisson.py:Poisson.logpdf_score"]}
{"id": "C14", "title": "Exchangeability", "statement": "Two histories of a primitive that end with the same hyperparameters and, up to order and row ids, the same held values give the same logpdf_score(), and the same logpdf for every query about a row that neither holds.", "quantifier": "every pair of histories with equal value multisets", "why_tests_cant": "Ranges over all permutations and all interleavings with unobserve.", "anchors": ["src/crp.py:CRP.logpdf_score", "src/categorical.py:Categorical.logpdf_score", "src/bernoulli.py:Bernoulli.logpdf_score", "src/normal.py:Normal.logpdf_score", "src/poisson.py:Poisson.logpdf_score"]}
{"id": "C15", "title": "Missing values carry no information", "statement": "For every primitive that accepts a missing value (nan), observing it changes neither logpdf_score() nor any later logpdf, and logpdf of a missing value is 0.", "quantifier": "every history, every column type", "why_tests_cant": "The claim is about every state; it is broken for two of the column types (Bernoulli and Poisson logpdf of nan is -inf).", "anchors": ["src/categorical.py:Categorical.logpdf", "src/bernoulli.py:Bernoulli.logpdf", "src/poisson.py:Poisson.logpdf", "src/normal.py:Normal.logpdf"]}
{"id": "C16", "title": "Queries on a primitive never fail numerically", "statement": "For a primitive created with legal hyperparameters and after any history, logpdf(None,{o:v}) and logpdf_score() return a number (finite or -inf), never raise a math domain error and never return nan; the one exception is a missing value on a CRP, which raises ValueError.", "quantifier": "every history, every value", "why_tests_cant": "Positivity of the Normal posterior scale (a Cauchy-Schwarz fact) must hold for every data set.", "anchors": ["src/normal.py:posterior_hypers", "src/normal.py:calc_log_Z", "src/crp.py:calc_predictive_logp", "src/poisson.py:calc_log_Z"]}
{"id": "C17", "title": "Discrete samplers draw from exactly the distribution that logpdf reports", "statement": "For CRP, Categorical and Bernoulli and an unobserved row, the probability vector handed to the random choice equals exp(logpdf) of the corresponding values, so the drawn value has the reported probability; for a row holding a non-missing value simulate returns that value.", "quantifier": "every history, row, random outcome", "why_tests_cant": "Simulate and logpdf use different code paths; equality of their laws cannot be sampled.", "anchors": ["src/crp.py:CRP.simulate", "src/categorical.py:Categorical.simulate", "src/bernoulli.py:Bernoulli.simulate"]}
{"id": "C18", "title": "set_hypers validates, get_hypers reads back", "statement": "set_hypers(h) with all positive-constrained entries positive succeeds, get_hypers() then returns h, rows and statistics are untouched; with any of them non-positive it raises and the object keeps its old hyperparameters.", "quantifier": "every primitive state and hyperparameter dict", "why_tests_cant": "All numeric hyperparameter values.", "anchors": ["src/crp.py:CRP.set_hypers", "src/normal.py:Normal.set_hypers", "src/poisson.py:Poisson.set_hypers", "src/bernoulli.py:Bernoulli.set_hypers"]}
{"id": "C19", "title": "Every hyperparameter grid point is legal", "statement": "For every data set X of non-missing legal values, and n_grid >= 1, construct_hyper_grids(X, n_grid) names exactly the hyperparameters of the class, each grid is non-empty, and set_hypers accepts every combination of grid points.", "quantifier": "every data set and grid size, CRP, Categorical, Bernoulli, Normal, Poisson, LinearRegression", "why_tests_cant": "Data-dependent grids: an illegal point would show only for particular data.", "anchors": ["src/crp.py:CRP.construct_hyper_grids", "src/normal.py:Normal.construct_hyper_grids", "src/poisson.py:Poisson.construct_hyper_grids"]}
{"id": "C20", "title": "Serialisation round trip", "statement": "from_metadata(to_metadata()) of any CGPM built from the primitives with Product, arrays and row mixtures, nested to any depth (finite mixtures divided by a Categorical or a Bernoulli, flexible arrays over a base without data), gives a CGPM with the same outputs, inputs, rows, statistics, hyperparameters and cluster assignments, hence the same answers to every later call; user-supplied params of primitives are the only thing not carried over.", "quantifier": "every CGPM state, every nesting", "why_tests_cant": "Quantifies over all composite structures and states.", "anchors": ["src/crp.py:CRP.from_metadata", "src/product.py:Product.from_metadata", "src/flexible_array.py:FlexibleArray.from_metadata", "src/finite_rowmix.py:FiniteRowMixture.from_metadata", "src/flexible_rowmix.py:FlexibleRowMixture.from_metadata"]}
{"id": "C21", "title": "Product factorises", "statement": "Product.logpdf(r, targets, constraints) is the sum over blocks of each block's logpdf of the targets and constraints that are its own outputs; blocks with no target contribute 0; constraints and targets belonging to other blocks have no influence.", "quantifier": "every product of any size and component behaviour, every query", "why_tests_cant": "All partitions of variables and all component behaviours.", "anchors": ["src/product.py:Product.logpdf", "src/product.py:logpdf_one"]}
{"id": "C22", "title": "Product holds a table: observe and unobserve are inverse", "statement": "On a Product with disjoint outputs, observe(r, obs) of a new row, if it succeeds, then unobserve(r) returns exactly the entries of obs that are outputs of the product and restores every component; unobserve on a Product of primitives never raises, and returns exactly the held cells of that row.", "quantifier": "every product of primitives, every state, row, observation over any subset of the outputs", "why_tests_cant": "All subsets of columns, all histories; exceptions are swallowed inside.", "anchors": ["src/chain.py:Chain.observe", "src/chain.py:Chain.unobserve", "src/chain.py:observe_one", "src/chain.py:unobserve_one"]}
{"id": "C23", "title": "Mixture: cluster posterior is normalised", "statement": "For a row mixture (finite or flexible) and a new row, the numbers exp(logpdf(None,{z:k}, constraints)) over the support of z sum to 1, whenever the constraints have positive probability.", "quantifier": "every mixture state, constraint set, component model", "why_tests_cant": "Sum over all clusters in all states.", "anchors": ["src/finite_rowmix.py:FiniteRowMixture.logpdf"]}
{"id": "C24", "title": "Mixture: marginalising the cluster", "statement": "For a new row, exp(logpdf(None, xT, xC)) equals the sum over the support of z of exp(logpdf(None, xT + {z:k}, xC)).", "quantifier": "every mixture state, disjoint targets and constraints", "why_tests_cant": "Ties together two different branches of the code for all states.", "anchors": ["src/finite_rowmix.py:FiniteRowMixture.logpdf"]}
{"id": "C25", "title": "Mixture: conditionals are ratios of joints", "statement": "For a new row, logpdf(None, xT, xC) = logpdf(None, xT + xC) - logpdf(None, xC) whenever the constraints have positive probability, with or without the cluster variable among targets or constraints.", "quantifier": "every mixture state, disjoint targets and constraints", "why_tests_cant": "Ties four code branches together for all states.", "anchors": ["src/finite_rowmix.py:FiniteRowMixture.logpdf"]}
{"id": "C26", "title": "Mixture: observed rows answer from their own cluster", "statement": "For a row held by a mixture, logpdf and simulate use the component of the cluster the row was observed in, simulate returns that cluster for the cluster variable, and constraining the cluster of an observed row is rejected.", "quantifier": "every mixture state, held row, query", "why_tests_cant": "All histories of assignments.", "anchors": ["src/finite_rowmix.py:FiniteRowMixture.logpdf", "src/finite_rowmix.py:FiniteRowMixture.simulate", "src/finite_rowmix.py:FiniteRowMixture._simulate_one"]}
{"id": "C27", "title": "Mixture bookkeeping agrees", "statement": "In a row mixture driven by observe/unobserve with whole-number clusters, after any history in which every observe succeeded, the row divider, rowid_to_component and the component array agree on which rows are held and on the cluster of each row, and each cell of a row is held by exactly the component of that cluster.", "quantifier": "every history of observe/unobserve, flexible and finite mixtures", "why_tests_cant": "Three structures are updated separately.", "anchors": ["src/finite_rowmix.py:FiniteRowMixture.observe", "src/finite_rowmix.py:FiniteRowMixture.unobserve", "src/flexible_array.py:FlexibleArray.observe", "src/finite_array.py:FiniteArray.observe"]}
{"id": "C28", "title": "Mixture observe and unobserve are inverse", "statement": "observe of a new row with a supported cluster and legal data, then unobserve, returns the data together with the cluster, and the mixture then answers every query as before.", "quantifier": "every mixture state, row, observation", "why_tests_cant": "Component creation and CRP table creation must be invisible, in every state.", "anchors": ["src/finite_rowmix.py:FiniteRowMixture.observe", "src/finite_rowmix.py:FiniteRowMixture.unobserve"]}
{"id": "C29", "title": "Mixture chain rule", "statement": "For a flexible row mixture, logpdf_score() after observe(r, x + {z:k}) equals logpdf_score() before plus logpdf(None, x + {z:k}) before.", "quantifier": "every state, new row, supported cluster, legal data", "why_tests_cant": "Relates score and joint density in all states.", "anchors": ["src/finite_rowmix.py:FiniteRowMixture.logpdf_score", "src/flexible_array.py:FlexibleArray.logpdf_score"]}
{"id": "C30", "title": "Queries do not change what a model knows", "statement": "logpdf, simulate and logpdf_score on any composite (finite mixtures divided by a Categorical or a Bernoulli, flexible arrays over a base without data) leave every row, statistic, hyperparameter and cluster assignment unchanged; the only change they may make is to create empty clones of the base component, after which every later answer is the same as without the query.", "quantifier": "every composite state and query", "why_tests_cant": "The flexible array creates components inside queries; the effect on all later calls has to be ruled out.", "anchors": ["src/flexible_array.py:FlexibleArray.get_cgpm", "src/flexible_array.py:FlexibleArray.logpdf", "src/flexible_array.py:FlexibleArray.simulate"]}
{"id": "C31", "title": "A rejected observe on a mixture leaves no trace", "statement": "If observe on a row mixture raises, the mixture answers every later query as before.", "quantifier": "every mixture state and illegal observation", "why_tests_cant": "Violated: the row divider and rowid_to_component are updated before the component rejects the data.", "anchors": ["src/finite_rowmix.py:FiniteRowMixture.observe"]}
{"id": "C32", "title": "Row inputs reach the mixture components", "statement": "logpdf and simulate on a row mixture hand the inputs that belong to the component's inputs to the component.", "quantifier": "every mixture whose components have inputs, every query", "why_tests_cant": "Violated: the query paths filter the inputs by the component outputs.", "anchors": ["src/finite_rowmix.py:FiniteRowMixture._logpdf_one", "src/finite_rowmix.py:FiniteRowMixture._simulate_one"]}
{"id": "C33", "title": "Finite mixtures have a score", "statement": "logpdf_score() of a finite row mixture returns the sum of the divider's score and its components' scores.", "quantifier": "every finite mixture", "why_tests_cant": "Violated: FiniteArray.logpdf_score sums bound methods and always raises TypeError.", "anchors": ["src/finite_array.py:FiniteArray.logpdf_score", "src/finite_rowmix.py:FiniteRowMixture.logpdf_score"]}
{"id": "C34", "title": "simulate returns exactly the requested samples", "statement": "simulate(r, targets, N=n) returns a list of exactly n samples, and with N=None one sample; each sample assigns a value to exactly the requested targets.", "quantifier": "every composite, target set, n", "why_tests_cant": "All structures and counts; the mixture splits the n samples across clusters.", "anchors": ["src/finite_rowmix.py:FiniteRowMixture.simulate", "src/product.py:Product.simulate", "src/product.py:merge_samples", "src/product.py:simulate_one"]}
{"id": "C35", "title": "Samples of a product of mixtures are independent across blocks", "statement": "In Product.simulate(None, targets, N=n), the position at which a sample appears in one block's list carries no information about its cluster, so that zipping the blocks gives independent draws.", "quantifier": "every product of mixtures, every random outcome", "why_tests_cant": "Violated: a mixture returns its n samples sorted by cluster, so zipping pairs equal ranks.", "anchors": ["src/finite_rowmix.py:FiniteRowMixture.simulate", "src/product.py:merge_samples"]}
{"id": "C36", "title": "Walks find exactly the generators of an output", "statement": "get_cgpms_by_output_index(c, o) returns exactly the primitives inside c (including the base of flexible arrays) whose only output is o, when o is an output of c.", "quantifier": "every nested composite and output", "why_tests_cant": "All nestings.", "anchors": ["src/walks.py:get_cgpms_by_output_index"]}
{"id": "C37", "title": "remove_cgpm removes one column and nothing else", "statement": "remove_cgpm(c, o) on a product or a flexible mixture gives a CGPM whose outputs are those of c without o's primitive, and every other column and every cluster assignment keeps its rows.", "quantifier": "every composite state and output", "why_tests_cant": "All structures and data.", "anchors": ["src/walks.py:remove_cgpm"]}
{"id": "C38", "title": "add_cgpm adds one column and nothing else", "statement": "add_cgpm(c, new) on a product or flexible mixture adds new's outputs at the end, gives every cluster an identical copy, keeps all data, and is undone by remove_cgpm.", "quantifier": "every composite state", "why_tests_cant": "All structures and data.", "anchors": ["src/walks.py:add_cgpm"]}
{"id": "C39", "title": "Row Gibbs step keeps the data and stays in the support", "statement": "transition_rows(mixture, r, rng) either raises or leaves every cell of every row, every other row's cluster, and all hyperparameters as they were; r's new cluster is in the support of the divider without r.", "quantifier": "every flexible mixture state, row, random outcome", "why_tests_cant": "All states and all random outcomes.", "anchors": ["src/transition_rows.py:transition_rows"]}
{"id": "C40", "title": "Row Gibbs step samples from the exact conditional", "statement": "The probability with which transition_rows puts row r in cluster k is proportional to exp(logpdf_score()) of the mixture in which r sits in cluster k.", "quantifier": "every flexible mixture state and row", "why_tests_cant": "An identity between incremental predictive weights and full scores.", "anchors": ["src/transition_rows.py:transition_rows"]}
{"id": "C41", "title": "set_rowid_component does what it says", "statement": "set_rowid_component(m, r0, r1) with r0 != r1 leaves r0 in the cluster of r1; with r1=None it puts r0 in a cluster of its own; no cell and no other row's cluster changes.", "quantifier": "every flexible mixture state and pair of held rows", "why_tests_cant": "All states, including r0 being a singleton.", "anchors": ["src/transition_rows.py:set_rowid_component"]}
{"id": "C42", "title": "Hyperparameter transition keeps copies in sync", "statement": "After transition_hypers(cgpms, grids, rng) all cgpms have the same hyperparameters, each hyperparameter is a point of its grid, and no row or statistic has changed.", "quantifier": "every non-empty list of same-type primitives, grids, random outcome", "why_tests_cant": "All grids, orders and random outcomes.", "anchors": ["src/transition_hypers.py:transition_hypers", "src/transition_hypers.py:transition_hypers_full", "src/transition_hypers.py:set_hypers"]}
{"id": "C43", "title": "Hyperparameter transition weights are the joint score", "statement": "The weight of each grid point in transition_hypers is the sum of the cgpms' scores with that point substituted for the hyperparameter and the other hyperparameters at their current values; for the full version over the whole grid product.", "quantifier": "every list of cgpms and grids", "why_tests_cant": "Loop-carried state (hyperparams dict) must not leak between grid points.", "anchors": ["src/transition_hypers.py:transition_hypers", "src/transition_hypers.py:transition_hypers_full"]}
{"id": "C44", "title": "Moving a column between views keeps the data", "statement": "transition_cgpm_view_assigments, set_cgpm_view_assignment (existing and singleton) on a CrossCat whose views hold the same rows return a CrossCat with the same set of data columns, the same cells in each, the same rows in each view, unchanged clusters in the untouched views and no view without columns.", "quantifier": "every well-formed CrossCat, column, target view, random outcome", "why_tests_cant": "All structures and random outcomes.", "anchors": ["src/transition_views.py:transition_cgpm_view_assigments", "src/transition_views.py:set_cgpm_view_assignment_existing", "src/transition_views.py:set_cgpm_view_assignment_singleton"]}
{"id": "C45", "title": "set_cgpm_view_assignment realises the requested view structure", "statement": "After set_cgpm_view_assignment(c, o0, o1) columns o0 and o1 are in one view; with o1=None o0 is alone in its view; every other pair of columns is together exactly when it was before.", "quantifier": "every well-formed CrossCat and columns", "why_tests_cant": "All partitions of columns.", "anchors": ["src/transition_views.py:set_cgpm_view_assignment"]}
{"id": "C46", "title": "Any sequence of inference steps preserves the data set", "statement": "From a well-formed CrossCat with aligned rows, any finite sequence of the Gibbs kernels (rows, hypers, views) and deterministic setters either raises or leaves the table of observed cells exactly as it was and the CrossCat well-formed.", "quantifier": "every kernel schedule and random outcome", "why_tests_cant": "All schedules.", "anchors": ["src/transition_crosscat.py:GibbsCrossCat.transition", "src/transition_crosscat.py:GibbsCrossCat.transition_row_assignments", "src/transition_crosscat.py:GibbsCrossCat.transition_view_assignments"]}
{"id": "C47", "title": "transition_generic runs the right number of kernels", "statement": "transition_generic(kernels, N, S) without a time limit and with N >= 1 runs every kernel exactly N times in round-robin order (once each when N is not given), N counted in sweeps; with a time limit S it stops at the first clock check that shows S seconds. (N = 0 raises ZeroDivisionError.)", "quantifier": "every kernel list, N >= 1, S > 0, clock behaviour", "why_tests_cant": "All loop counts and clock behaviours.", "anchors": ["src/progress.py:transition_generic"]}
{"id": "C48", "title": "Assignments to blocks", "statement": "partition_assignments_to_blocks(a) is a partition of the positions of a into non-empty blocks, two positions sharing a block exactly when their assignments are equal.", "quantifier": "every assignment list", "why_tests_cant": "All lists.", "anchors": ["src/transition_crosscat_cpp.py:partition_assignments_to_blocks"]}
{"id": "C49", "title": "Value coding for the C++ engine is lossless", "statement": "For a categorical column, coding values with the tables built by create_metadata maps distinct non-missing values to distinct codes 0..n-1, missing to missing, never fails on a value of the column, and the reverse table recovers the value.", "quantifier": "every data column", "why_tests_cant": "All data sets.", "anchors": ["src/transition_crosscat_cpp.py:create_metadata", "src/transition_crosscat_cpp.py:crosscat_value_to_code"]}
{"id": "C50", "title": "X_D describes the row partition", "statement": "The row partition handed to the C++ engine numbers the clusters 0..n-1 without gaps, and two rows get the same number exactly when they are in the same cluster.", "quantifier": "every view state", "why_tests_cant": "All cluster numberings with gaps.", "anchors": ["src/transition_crosscat_cpp.py:_get_crosscat_X_D"]}
{"id": "C51", "title": "Importing the engine's result realises its partitions", "statement": "_get_crosscat_updated(crosscat, observations, M_c, X_L, X_D) returns a CrossCat in which two columns share a view exactly when X_L assigns them the same number, two rows share a cluster of a view exactly when X_D says so, and the data is unchanged.", "quantifier": "every well-formed CrossCat and every consistent X_L, X_D", "why_tests_cant": "All partitions of columns and rows.", "anchors": ["src/transition_crosscat_cpp.py:_get_crosscat_updated"]}
{"id": "C52", "title": "Iteration budget of the C++ transition", "statement": "transition_cpp runs the engine with N steps when N is given, with the time limit S when S is given, and with one step when neither is given.", "quantifier": "every combination of N and S", "why_tests_cant": "Violated: with neither given it always raises AssertionError.", "anchors": ["src/transition_crosscat_cpp.py:transition_cpp"]}
{"id": "C53", "title": "Bulk calls equal repeated calls", "statement": "make_args_list zips its non-None arguments position by position, substitutes None for absent ones and rejects unequal lengths; bulk observe/unobserve/logpdf on a chain give the same states and results as the individual calls in order.", "quantifier": "every argument list, every chain state", "why_tests_cant": "All lengths and None patterns.", "anchors": ["src/crosscat_ensemble.py:make_args_list", "src/crosscat_ensemble.py:_modify_bulk", "src/crosscat_ensemble.py:_evaluate_bulk"]}
{"id": "C54", "title": "Chains of an ensemble do not interact", "statement": "An ensemble operation transforms chain i by the corresponding CrossCat operation and no other chain influences it; results come in chain order.", "quantifier": "every ensemble size and operation", "why_tests_cant": "All ensemble sizes.", "anchors": ["src/crosscat_ensemble.py:CrossCatEnsemble._observe", "src/crosscat_ensemble.py:mapper", "src/crosscat_ensemble.py:_alter"]}
{"id": "C55", "title": "Co-assignment matrices are equivalence relations", "statement": "same_assignment_column_pairwise and same_assignment_row_pairwise return symmetric 0/1 matrices with unit diagonal whose 1-entries form a transitive relation and agree with same_assignment_column/row entry by entry.", "quantifier": "every CrossCat state and list of distinct outputs", "why_tests_cant": "All sizes.", "anchors": ["src/crosscat_ensemble.py:same_assignment_column_pairwise", "src/crosscat_ensemble.py:same_assignment_row_pairwise"]}
{"id": "C56", "title": "Mutual information query validation", "statement": "_validate_query accepts exactly the queries whose variables are all outputs, with targets, constraints and marginalised variables pairwise disjoint and the two target sets disjoint or equal.", "quantifier": "every variable sets", "why_tests_cant": "All combinations of sets.", "anchors": ["src/entropy.py:_validate_query"]}
{"id": "C57", "title": "Mutual information between independent views is exactly zero", "statement": "For a Product and target sets lying in different blocks, every Monte-Carlo term of _sample_mi is exactly zero when it is finite, hence so are the estimate's mean and variance.", "quantifier": "every product, samples, constraints", "why_tests_cant": "All samples and models.", "anchors": ["src/entropy.py:_sample_mi", "src/entropy.py:mutual_information"]}
{"id": "C58", "title": "Marginalised mutual information works", "statement": "mutual_information returns an estimate and its variance for every legal query, with or without variables to marginalise.", "quantifier": "every model and legal query", "why_tests_cant": "Violated: merging None constraints raises, and get_estimate takes the length of an iterator.", "anchors": ["src/entropy.py:mutual_information", "src/entropy.py:get_estimate"]}
{"id": "C59", "title": "Random partition generator returns partitions", "statement": "generate_random_partition(alpha, N, rng) returns a list of non-empty disjoint increasing blocks covering 0..N-1, ordered by least element, for every random outcome, and number n joins a block with probability size/(n+alpha) and starts a new one with probability alpha/(n+alpha).", "quantifier": "every N, alpha > 0, random outcome", "why_tests_cant": "All random outcomes.", "anchors": ["src/sample_crosscat.py:generate_random_partition"]}
{"id": "C60", "title": "Rendered program reproduces cluster assignments", "statement": "The observe statements produced by get_view_observes mention every row once, with its own data and a cluster number such that two rows get the same number exactly when they share a cluster, in an order a fresh CRP accepts.", "quantifier": "every view state", "why_tests_cant": "Violated for some states: cluster numbers are taken from the wrong row.", "anchors": ["src/sample_crosscat.py:get_view_observes", "src/sample_crosscat.py:reindex_crp_observes", "src/sample_crosscat.py:get_sorted_rowids"]}
{"id": "C61", "title": "Cluster relabelling is faithful", "statement": "reindex_crp_observes renumbers the tables 0..n-1 in increasing order so that equal tables get equal numbers and different tables different numbers; get_sorted_rowids returns a permutation of the row ids in non-decreasing table order, stable within a table.", "quantifier": "every list of table observations", "why_tests_cant": "All lists.", "anchors": ["src/sample_crosscat.py:reindex_crp_observes", "src/sample_crosscat.py:get_sorted_rowids"]}
{"id": "C62", "title": "Distribution keys of the core DSL parse back", "statement": "Parsing the key '<name>{id:<n>}' written by the compiler returns the same name and n, for every registered distribution name and integer n.", "quantifier": "every name without braces or the substring 'id:', every integer", "why_tests_cant": "All integers and names.", "anchors": ["src/sample_crosscat.py:core_compile_distribution", "src/sample_crosscat.py:core_parse_distribution"]}
{"id": "C63", "title": "Importing row assignments never trips the CRP", "statement": "The order and numbering chosen by rebase_cgpm_row_assignments is always accepted by a fresh CRP, and two rows end in one cluster exactly when they were together in the imported state.", "quantifier": "every assignment of rows to tables", "why_tests_cant": "All assignments.", "anchors": ["src/conversion.py:rebase_cgpm_row_assignments", "src/conversion.py:convert_view_to_rowmixture"]}
{"id": "C64", "title": "Regression inputs are coded correctly", "statement": "process_inputs returns a vector of length p starting with 1; a categorical input with L levels takes L-1 entries, at most one of which is 1; different input values give different vectors; an out-of-range level is rejected.", "quantifier": "every schema of levels and inputs", "why_tests_cant": "All schemas.", "anchors": ["src/linreg.py:LinearRegression.process_inputs", "src/linreg.py:dummy_code_one"]}
{"id": "C65", "title": "Regression and forest rows can be unobserved", "statement": "unobserve(r) on a LinearRegression or RandomForest returns the observed value and inputs of r and removes the row.", "quantifier": "every state and held row", "why_tests_cant": "Violated: it always raises TypeError after removing the data, and the row count stays wrong.", "anchors": ["src/linreg.py:LinearRegression.unobserve", "src/forest.py:RandomForest.unobserve"]}
{"id": "C66", "title": "Regression score obeys the chain rule", "statement": "For a LinearRegression in any state, logpdf_score after observing a row equals logpdf_score before plus the logpdf of that row before.", "quantifier": "every data set, hyperparameters, schema", "why_tests_cant": "Relates two closed formulas with determinants.", "anchors": ["src/linreg.py:calc_predictive_logp", "src/linreg.py:calc_logpdf_marginal"]}
{"id": "C67", "title": "Chain composes densities", "statement": "For a Chain and a query that fixes all outputs of all its members, logpdf is the sum of the members' logpdf with the parents' values as inputs, whatever the accuracy setting and random numbers.", "quantifier": "every chain, topological order, accuracy", "why_tests_cant": "All networks and orders.", "anchors": ["src/chain.py:Chain.logpdf", "src/chain.py:Chain.weighted_sample", "src/chain.py:Chain.invoke_cgpm"]}
{"id": "C68", "title": "Finite mixtures divided by a CRP can be rebuilt", "statement": "A FiniteRowMixture that was accepted by its constructor can be serialised and rebuilt at any later time.", "quantifier": "every finite mixture, every divider, every history", "why_tests_cant": "Violated: from_metadata repeats the constructor's check that the components match the divider's support, and the support of a CRP grows with the data.", "anchors": ["src/finite_rowmix.py:FiniteRowMixture.from_metadata", "src/finite_rowmix.py:FiniteRowMixture.__init__"]}
{"id": "C69", "title": "Rows that are not held are interchangeable", "statement": "For a model built from primitives by Product, FiniteRowMixture and FlexibleRowMixture to any depth, logpdf gives the same answer for any two rows of which the model holds nothing, in particular for None and any new row id.", "quantifier": "every model state, query, pair of rows that are not held", "why_tests_cant": "All nestings, all histories, all pairs of rows.", "anchors": ["src/finite_rowmix.py:FiniteRowMixture.logpdf", "src/product.py:Product.logpdf", "src/crp.py:CRP.logpdf"]}
{"id": "C70", "title": "A mixture draws the cluster from its posterior", "statement": "When a row mixture simulates its cluster variable for a row it does not hold, the sample has cluster k with the probability that logpdf reports for k given the same constraints.", "quantifier": "every mixture of any depth, constraints of positive probability, cluster in the support", "why_tests_cant": "Equality of a measure with a formula, for every state.", "anchors": ["src/finite_rowmix.py:FiniteRowMixture.simulate", "src/finite_rowmix.py:FiniteRowMixture._simulate_one"]}
{"id": "C71", "title": "Each block of a Product simulates its own columns", "statement": "In the samples of a Product, the columns of a block are exactly the columns of that block's own simulate, asked with the block's share of the targets and of the constraints.", "quantifier": "every Product of any depth, every block, every number of samples", "why_tests_cant": "All products, all samples, all random states.", "anchors": ["src/product.py:Product.simulate", "src/product.py:merge_samples"]}
{"id": "C72", "title": "get_rowids lists exactly the held rows", "statement": "get_rowids(mixture) returns every row that has a cluster in the mixture, each exactly once, and no other row, and does not change the mixture.", "quantifier": "every mixture of any depth, after any history of calls", "why_tests_cant": "All histories of observe, unobserve and Gibbs steps.", "anchors": ["src/transition_rows.py:get_rowids"]}
{"id": "C73", "title": "Numbers of a rendered program read back exactly", "statement": "A hyperparameter written by the core DSL compiler is read back with the same value.", "quantifier": "every number", "why_tests_cant": "Violated: numbers that are not whole are written with four decimals.", "anchors": ["src/sample_crosscat.py:core_compile_key_val"]}
{"id": "C74", "title": "VentureScript rendering attributes cells to their own rows", "statement": "The observe statements rendered for VentureScript from a view give every row a cluster number, equal for two rows exactly when they share a cluster, and attribute every data cell of the view to the row that holds it.", "quantifier": "every view state", "why_tests_cant": "Violated: get_view_observes_data_vs uses a loop variable left over from a list comprehension, so every cell is attributed to the last row.", "anchors": ["src/sample_crosscat.py:get_view_observes_crp_vs", "src/sample_crosscat.py:get_view_observes_data_vs"]}
{"id": "C75", "title": "The data set of a column", "statement": "get_dataset(cgpm, output) lists, for a column of a model, exactly the rows that hold a cell of the column, each once and with the value it holds; get_crosscat_dataset_one lists these values in the order of the row ids.", "quantifier": "every model of any nesting depth and every history of calls", "why_tests_cant": "The data of a column is spread over the clusters; no sample of models covers all nestings and histories.", "anchors": ["src/transition_views.py:get_dataset", "src/transition_crosscat_cpp.py:get_crosscat_dataset_one"]}
{"id": "C76", "title": "Repeated simulate calls on an ensemble use fresh random numbers", "statement": "Calling simulate (or simulate_bulk) twice on an ensemble gives two successive sets of samples: every call advances the random state of every chain, as the chain's own simulate does, whether or not the chains are run in other processes.", "quantifier": "every ensemble, query and value of multiprocess", "why_tests_cant": "Two equal samples look like chance; the property is about the random state left behind by every call.", "anchors": ["src/crosscat_ensemble.py:CrossCatEnsemble._simulate", "src/crosscat_ensemble.py:mapper"]}
{"id": "C77", "title": "The order of dictionary entries does not matter", "statement": "Two sequences of calls of observe, unobserve, logpdf, logpdf_score and simulate that differ only in the order in which the dictionaries passed list their entries get the same answers, in the same random state, from every model.", "quantifier": "every model of any nesting depth, every finite sequence of calls and every reordering of their arguments", "why_tests_cant": "All models, histories and permutations; the code iterates over its arguments in many places.", "anchors": ["src/product.py:Product", "src/finite_rowmix.py:FiniteRowMixture", "src/flexible_rowmix.py:FlexibleRowMixture", "src/finite_array.py:FiniteArray"]}
{"id": "C78", "title": "The predictive distribution of a regression is a probability density", "statement": "Given rows whose values and inputs are all present, exp(logpdf) of a linear regression, as a function of the value of the output, is positive, continuous and integrates to one, for every setting of the inputs.", "quantifier": "every regression with such a history of observations and hyperparameter updates, every setting of the inputs", "why_tests_cant": "An integral over the real line for every state.", "anchors": ["src/linreg.py:LinearRegression.logpdf"]}
{"id": "C79", "title": "The order of observations does not matter to a regression", "statement": "Two regressions that were given the same observations in different orders accept the same ones, have the same score and give the same answer to every logpdf query.", "quantifier": "every regression, every list of observations and every permutation of it", "why_tests_cant": "All permutations of all data sets, through matrix inverses and determinants.", "anchors": ["src/linreg.py:LinearRegression.observe", "src/linreg.py:LinearRegression.logpdf_score", "src/linreg.py:LinearRegression.logpdf"]}
{"id": "C80", "title": "A missing value carries no information in a regression", "statement": "A regression that holds a row with a missing value or a missing input still answers logpdf queries with finite numbers.", "quantifier": "every regression after every history of observations", "why_tests_cant": "Violated: one missing value makes the score and every later logpdf NaN.", "anchors": ["src/linreg.py:LinearRegression.observe", "src/linreg.py:LinearRegression.calc_posterior"]}
{"id": "C81", "title": "Metadata of regressions and forests is a faithful copy", "statement": "from_metadata(to_metadata(m)) of a linear regression or a random forest answers every later call as m does.", "quantifier": "every regression and forest after every history", "why_tests_cant": "Violated: the prior mean and covariance given to the constructor are not saved.", "anchors": ["src/linreg.py:LinearRegression.to_metadata", "src/linreg.py:LinearRegression.from_metadata", "src/forest.py:RandomForest.to_metadata", "src/forest.py:RandomForest.from_metadata"]}
{"id": "C82", "title": "Simulating from a regression always succeeds", "statement": "simulate of a regression returns as many samples as asked, each giving a number to the output and to nothing else; for a held row they are the value it holds.", "quantifier": "every regression with complete rows, every admissible query, every random state", "why_tests_cant": "All states, inputs and random states.", "anchors": ["src/linreg.py:LinearRegression.simulate"]}
{"id": "C83", "title": "The class probabilities of a forest sum to one", "statement": "For every setting of the inputs, exp(logpdf) of a random forest over the classes sums to one, and a value that is no class has probability zero.", "quantifier": "every forest after every history of observations and transitions, every setting of the inputs", "why_tests_cant": "Violated: before any transition every value has probability zero, although simulate draws uniformly.", "anchors": ["src/forest.py:RandomForest.logpdf", "src/forest.py:RandomForest.transition"]}
{"id": "C84", "title": "Simulating from a forest agrees with its logpdf", "statement": "simulate of a forest returns as many samples as asked; for a held row they are the value it holds, for a new row each is a class, drawn with the probability that logpdf reports.", "quantifier": "every forest after every history, every setting of the inputs, every random state and every number of samples", "why_tests_cant": "Violated for N = 0, which raises. Equality of a measure with a formula, for every state.", "anchors": ["src/forest.py:RandomForest.simulate"]}
{"id": "C85", "title": "A forest is trained on exactly the complete rows", "statement": "A transition of a forest fits its classifier to exactly the held rows whose value and inputs are all present, in the order they were observed (no input being declared with a single level, whose value is not recorded), and does not change what the forest holds.", "quantifier": "every forest after every history of observations and transitions", "why_tests_cant": "All patterns of missing values.", "anchors": ["src/forest.py:RandomForest.transition", "src/forest.py:get_training_data"]}
{"id": "C86", "title": "Observing a row in a chain obeys the chain rule", "statement": "If the members of a Chain obey the chain rule (their score grows by their logpdf when they observe), then so does the Chain: logpdf_score after observe is logpdf_score before plus logpdf of the row, whether inputs are values of parents or given from outside.", "quantifier": "every chain of primitives, regressions, forests and composites, every topological order, row and inputs", "why_tests_cant": "All networks and all ways of splitting inputs between parents and exogenous values.", "anchors": ["src/chain.py:Chain.observe", "src/chain.py:observe_one", "src/chain.py:Chain.logpdf", "src/chain.py:Chain.logpdf_score"]}
{"id": "C87", "title": "unobserve on a chain undoes observe", "statement": "After observe of a new row, unobserve on a Chain returns the observation and the inputs, and leaves the Chain as it was.", "quantifier": "every chain, every row", "why_tests_cant": "A member that fails to unobserve must not lose the observation silently; this concerns every kind of member and every history.", "anchors": ["src/chain.py:Chain.unobserve", "src/chain.py:unobserve_one"]}
{"id": "C88", "title": "A chain simulates ancestrally", "statement": "simulate on a Chain without constraints (accuracy 1) draws, in topological order, each member's requested variables and the variables required by others from that member's own simulate, given the values just drawn for its parents; it returns exactly the requested number of samples with exactly the targets.", "quantifier": "every chain, topological order, targets, inputs and random numbers", "why_tests_cant": "All networks, all random outcomes.", "anchors": ["src/chain.py:Chain.simulate", "src/chain.py:Chain.weighted_sample", "src/chain.py:Chain.invoke_cgpm"]}
{"id": "C89", "title": "No answer of the C++ engine can damage the table", "statement": "Whenever transition_cpp (or a kernel built on it) returns, the CrossCat has the columns and the cells it had, and its views have the same rows (for a table without missing cells), whatever the engine answered.", "quantifier": "every CrossCat, every answer of the engine, every arguments and random numbers", "why_tests_cant": "The engine is an external program; all its possible answers.", "anchors": ["src/transition_crosscat_cpp.py:transition_cpp", "src/transition_crosscat_cpp.py:_get_crosscat_updated"]}
{"id": "C90", "title": "The C++ engine is given the table", "statement": "transition_cpp gives the engine a table with one line per row, in order, and one code per column; the metadata decode each code to the cell, and two cells of a column have the same code exactly when they are equal.", "quantifier": "every CrossCat with a value in every cell (NaN included)", "why_tests_cant": "Violated for columns that are neither Normal nor Categorical: the call raises. All tables.", "anchors": ["src/transition_crosscat_cpp.py:_get_crosscat_M_c", "src/transition_crosscat_cpp.py:_get_crosscat_T", "src/transition_crosscat_cpp.py:get_crosscat_dataset"]}
{"id": "C91", "title": "The C++ engine is given the latent state", "statement": "transition_cpp gives the engine, for each column, the hyperparameters of the CrossCat and the number of its view; for each view, its columns, the sizes of its clusters and the concentration of its CRP; and the dependence constraints by column numbers.", "quantifier": "every CrossCat with Normal and Categorical columns, all constraints on its columns", "why_tests_cant": "Violated for a categorical column with missing values only: the call raises. All latent states.", "anchors": ["src/transition_crosscat_cpp.py:_get_crosscat_X_L", "src/transition_crosscat_cpp.py:create_hypers", "src/transition_crosscat_cpp.py:create_view_state"]}
{"id": "C92", "title": "An engine that changes nothing leaves the partitions unchanged", "statement": "If the engine answers with the state it was given and transition_cpp returns, the same columns share views and the same rows share clusters as before.", "quantifier": "every CrossCat whose views have the same rows, with sets of small numbers enumerated in order", "why_tests_cant": "Composition of export and import for all latent states.", "anchors": ["src/transition_crosscat_cpp.py:transition_cpp", "src/transition_crosscat_cpp.py:_get_crosscat_X_D", "src/transition_crosscat_cpp.py:_get_crosscat_X_L", "src/transition_crosscat_cpp.py:_get_crosscat_updated"]}
{"id": "C93", "title": "Moves of columns between views return", "statement": "set_cgpm_view_assignment(x, o0, o1) and set_cgpm_view_assignment(x, o0, None) return on every CrossCat x with these columns, and transition_cgpm_view_assigments(x, outs, aux) returns for any columns outs of one view.", "quantifier": "every CrossCat (all data, hyperparameters and latent states), columns, number of auxiliary views and random state", "why_tests_cant": "Violated: the variable of a new view is drawn at random and raises when it is in use; the columns of all views after the 257th make transition_cgpm_view_assigments raise, as positions are compared with `is not`. All CrossCats, all random states.", "anchors": ["src/transition_views.py:set_cgpm_view_assignment", "src/transition_views.py:transition_cgpm_view_assigments", "src/transition_views.py:get_cgpm_view_proposals_singleton"]}
{"id": "C94", "title": "A call of the C++ engine returns", "statement": "transition_cpp returns if the engine answers with partitions of the columns and rows it was given; _get_crosscat_updated returns for every answer with matching metadata and partitions of the columns and rows.", "quantifier": "every CrossCat with Normal and Categorical columns whose rows have a value in every column, every such engine and answer, all arguments that name columns and rows of the CrossCat, every random state", "why_tests_cant": "Violated: each new view gets a random integer as cluster variable, and the call raises when it is in use. All answers, all random states.", "anchors": ["src/transition_crosscat_cpp.py:transition_cpp", "src/transition_crosscat_cpp.py:_get_crosscat_updated", "src/transition_rows.py:set_rowid_component"]}
{"id": "C95", "title": "Gibbs steps on rows return", "statement": "transition_rows(view, rowid) returns for every row of every view of a CrossCat, and so does the kernel transition_row_assignments of a GibbsCrossCat for every selection of columns and rows.", "quantifier": "every CrossCat (all data, missing values, hyperparameters and latent states), orders of views, selections and random states", "why_tests_cant": "Violated: if a value of a Bernoulli or Poisson column is missing and the view has another row, the step raises and the row is lost. All random states.", "anchors": ["src/transition_rows.py:transition_rows", "src/transition_crosscat.py:GibbsCrossCat.transition_row_assignments", "src/bernoulli.py:Bernoulli.logpdf", "src/poisson.py:Poisson.logpdf"]}
{"id": "C96", "title": "Inference keeps the types of columns and makes no rows", "statement": "After any calls of the kernels, transition and the setters of a GibbsCrossCat that return, each column is made of primitives of the class it was made of, with the same number of categories, and no view holds a row that no view held before.", "quantifier": "every CrossCat (all data, hyperparameters and latent states), every sequence of calls with any arguments, orders, schedules, engine answers, random states and clocks", "why_tests_cant": "Columns move between views by taking an empty primitive out of one and putting it, with copies, in another; whether its class survives depends on the whole history.", "anchors": ["src/transition_crosscat.py:GibbsCrossCat", "src/transition_views.py:set_cgpm_view_assignment", "src/transition_views.py:transition_cgpm_view_assigments", "src/walks.py:add_cgpm", "src/walks.py:remove_cgpm", "src/walks.py:get_cgpm_base"]}
{"id": "C97", "title": "Inference with a GibbsCrossCat returns", "statement": "A GibbsCrossCat can be made from every CrossCat, and every sequence of calls of transition for a number of sweeps, of the kernels, of set_view_assignment and of the methods that make hyperparameter grids returns.", "quantifier": "every CrossCat with a column (all data, hyperparameters and latent states), every sequence of calls for its columns, all orders, clocks and random states", "why_tests_cant": "Each call starts in the state that all earlier calls left. Violated as in C93 and C95. All histories, all random states.", "anchors": ["src/transition_crosscat.py:GibbsCrossCat", "src/transition_hypers.py:transition_hypers", "src/progress.py:transition_generic"]}
{"id": "C98", "title": "Every chain of an ensemble holds the user's table", "statement": "A CrossCatEnsemble that is made has the columns and types that were asked for in every chain. After any observe, observe_bulk, unobserve, unobserve_bulk, transition with an inference program, saving and loading, and queries of all kinds (that return or raise), each chain is still a CrossCat with these columns and types, holds exactly the cells that were given and not taken out, and has no other row.", "quantifier": "all columns, types, constraints, numbers of chains, random states; every sequence of calls with any arguments and inference programs, in one or several processes", "why_tests_cant": "The claim is about all histories of an object whose structure is drawn at random and re-drawn by every transition.", "anchors": ["src/crosscat_ensemble.py:CrossCatEnsemble", "src/crosscat_ensemble.py:make_random_crosscat", "src/crosscat_ensemble.py:make_random_view", "src/crosscat_ensemble.py:make_random_primitive", "src/crosscat_ensemble.py:make_default_inference_program"]}
{"id": "C99", "title": "An ensemble accepts exactly the legal observations", "statement": "observe(rowid, observation) of columns returns exactly if none of the cells is held and each value is missing or legal for the type of its column (a category 0..k-1, 0 or 1, a natural number, any number); unobserve returns for every row id; inference that leaves columns in their views returns.", "quantifier": "every ensemble after every sequence of calls, all rows, observations and random states", "why_tests_cant": "Whether a chain accepts a value depends on its views, clusters and the clusters drawn at random, in every reachable state.", "anchors": ["src/crosscat_ensemble.py:CrossCatEnsemble.observe", "src/crosscat_ensemble.py:CrossCatEnsemble.unobserve", "src/product.py:Product.observe", "src/finite_rowmix.py:FiniteRowMixture.observe", "src/chain.py:Chain.unobserve"]}
{"id": "C100", "title": "Every question to an ensemble about a new row has an answer", "statement": "After any history, logpdf_score returns one finite number per chain. For a row that is not in the table, logpdf of any values of distinct columns returns one log-probability per chain; it is finite if the values are of the types of the columns, also given legal values of other columns, and then it is the joint one minus the one of the constraints. simulate of distinct columns, given legal values of others, returns one answer per chain with N samples of exactly these columns.", "quantifier": "every ensemble after every sequence of calls (C98), all rows, targets, constraints, sample counts but 0 and random states, in one or several processes", "why_tests_cant": "The answers are computed from latent structure that the whole history of calls and random draws determines; no sample of histories shows that none of them makes a query raise.", "anchors": ["src/crosscat_ensemble.py:CrossCatEnsemble.logpdf_score", "src/crosscat_ensemble.py:CrossCatEnsemble.logpdf", "src/crosscat_ensemble.py:CrossCatEnsemble.simulate", "src/finite_rowmix.py:FiniteRowMixture.simulate", "src/product.py:Product.logpdf"]}
{"id": "C101", "title": "Simulated values are values of their columns and can be observed", "statement": "Every value that simulate draws for a column is of the type of the column (a category 0..k-1, 0 or 1, a natural number, a number) and not missing, for rows of the table and others. Every sample can be given to observe as a row without data in these columns, and is accepted.", "quantifier": "models of any depth; every ensemble after every sequence of calls, all rows, targets, constraints, sample counts and random states", "why_tests_cant": "The value depends on random draws and on data of the row in every cluster.", "anchors": ["src/crosscat_ensemble.py:CrossCatEnsemble.simulate", "src/crosscat_ensemble.py:CrossCatEnsemble.observe", "src/finite_rowmix.py:FiniteRowMixture.simulate", "src/product.py:Product.simulate", "src/categorical.py:Categorical.simulate", "src/bernoulli.py:Bernoulli.simulate", "src/poisson.py:Poisson.simulate"]}
{"id": "C102", "title": "Mutual information is answered after any history", "statement": "mutual_information between two sets of columns, given sensible values of other columns, returns one estimate and variance per chain; both are finite numbers, and both are 0 in a chain in which no column of the first set shares a view with one of the second. Illegal combinations raise ValueError. Variables to marginalise are supported.", "quantifier": "every ensemble after every sequence of calls (C98), all sets of columns, constraints, sample counts and random states", "why_tests_cant": "The estimate is computed from random draws in a structure that the history determines. Violated: a variable to marginalise raises, in every state. All histories, all random states.", "anchors": ["src/crosscat_ensemble.py:CrossCatEnsemble.mutual_information", "src/entropy_mc.py:mutual_information"]}
{"id": "C103", "title": "Structure queries are answered after any history", "statement": "get_same_assignment_column (and its pairwise form) says for each chain if columns are in one view. get_same_assignment_row (and its pairwise form) says for each chain if rows are in one cluster of the view of a column, for all rows that have a value in the column. A row that was never given raises KeyError.", "quantifier": "every ensemble after every sequence of calls (C98), all columns, rows and random states", "why_tests_cant": "The structure is random and is re-drawn by inference. Violated for rows that were given without a value in the view: KeyError, for some chains and not for others. All histories, all random states.", "anchors": ["src/crosscat_ensemble.py:CrossCatEnsemble.get_same_assignment_column", "src/crosscat_ensemble.py:CrossCatEnsemble.get_same_assignment_row", "src/crosscat_ensemble.py:same_assignment_row", "src/crosscat_ensemble.py:same_assignment_column"]}
{"id": "C104", "title": "Heterogeneous queries give each chain its own query", "statement": "simulate_heterogeneous, simulate_heterogeneous_bulk and logpdf_heterogeneous_bulk ask the i-th chain the i-th query (or the queries of the i-th list, one after the other) and return the answers in the order of the chains; lists of another length than the number of chains are rejected before any chain is asked. evaluate applies the function to each chain and the arguments.", "quantifier": "every ensemble, all lists of queries, in one or several processes", "why_tests_cant": "All numbers of chains and queries.", "anchors": ["src/crosscat_ensemble.py:CrossCatEnsemble.simulate_heterogeneous", "src/crosscat_ensemble.py:CrossCatEnsemble.simulate_heterogeneous_bulk", "src/crosscat_ensemble.py:CrossCatEnsemble.logpdf_heterogeneous_bulk", "src/crosscat_ensemble.py:CrossCatEnsemble.evaluate"]}
{"id": "C105", "title": "A loaded ensemble answers as the saved one, and its chains stay independent", "statement": "After any history, from_metadata of to_metadata returns an ensemble in which every chain holds the data and answers every later sequence of calls, with any random state, as the chain that was saved; the chains keep different random states.", "quantifier": "every ensemble after every sequence of calls (C98), all later calls, all random states", "why_tests_cant": "Quantifies over all histories before saving and all calls after loading. Violated: all loaded chains get one random state, so chains with equal structure and data answer alike for ever; and loading raises if the random ensemble that is made and thrown away cannot be made.", "anchors": ["src/crosscat_ensemble.py:CrossCatEnsemble.to_metadata", "src/crosscat_ensemble.py:CrossCatEnsemble.from_metadata"]}
{"id": "C106", "title": "simulate draws from the distribution that logpdf reports", "statement": "The probability that one simulated row gives the targets certain values is exp of what logpdf returns for these values, given the same constraints. Two calls of simulate, one after the other, are independent.", "quantifier": "every primitive, product and mixture to any depth, and every chain of an ensemble after every sequence of calls; all rows without data, targets, constraints of positive probability and values; the probability is over the whole stream of random numbers", "why_tests_cant": "A test can only compare finitely many samples with the density, up to statistical error, in a few states. Here the law of the sample is equal to the reported density in every state.", "anchors": ["src/crp.py:CRP.simulate", "src/categorical.py:Categorical.simulate", "src/bernoulli.py:Bernoulli.simulate", "src/product.py:Product.simulate", "src/finite_rowmix.py:FiniteRowMixture.simulate", "src/flexible_rowmix.py:FlexibleRowMixture"]}
{"id": "C107", "title": "logpdf_score depends only on hyperparameters, table and partition", "statement": "Two views (and two CrossCats) with the same columns, hyperparameters and cells, whose clusters put the same rows together, have equal logpdf_score. Names of clusters, order of rows, columns and views, and the calls that led to the two states play no role.", "quantifier": "all views and CrossCats reachable by any history of calls, any number of rows, columns and clusters, any primitives", "why_tests_cant": "The score is a sum over incrementally maintained statistics of clusters whose labels depend on the history; a test compares a few histories, the theorem all pairs of histories that end with the same table and partition.", "anchors": ["src/flexible_rowmix.py:FlexibleRowMixture", "src/finite_rowmix.py:FiniteRowMixture.logpdf_score", "src/chain.py:Chain.logpdf_score", "src/crp.py:CRP.logpdf_score"]}
{"id": "C108", "title": "Gibbs sampling of rows targets the posterior of the clustering", "statement": "A Gibbs step on a row of a CrossCat view leads to each clustering with its exact conditional probability given the clustering of the other rows, proportional to exp(logpdf_score); hence a step on one row, and a sweep over the rows in random order, leave the distribution proportional to exp(logpdf_score) over all clusterings of the rows unchanged.", "quantifier": "all views reachable by any history of calls, any number of rows, columns and clusters, any primitives, any set of rows passed to the kernel", "why_tests_cant": "Whether a sampler keeps a distribution is a statement about exact probabilities over all partitions of the rows; tests only see finite samples on a few tables, and small errors of the weights (a missing CRP factor, a row counted twice) are invisible in samples.", "anchors": ["src/transition_rows.py:transition_rows", "src/transition_crosscat.py:GibbsCrossCat.transition_row_assignments", "src/crp.py:CRP.logpdf_score"]}
{"id": "C109", "title": "Repeated sweeps over the rows approach the posterior", "statement": "From any clustering of the rows of a CrossCat view, n sweeps of the row kernel lead to each clustering with a probability that differs from its share of exp(logpdf_score) by at most rho^n, for some rho < 1 that does not depend on n or on the start; hence the distribution of the clustering converges to the posterior.", "quantifier": "all views reachable by any history of calls, any number of rows, columns and clusters, any primitives, every starting clustering", "why_tests_cant": "Convergence is a statement about the limit of exact probabilities over all partitions of the rows; tests can compare a few finite chains with a posterior only on tiny tables.", "anchors": ["src/transition_crosscat.py:GibbsCrossCat.transition_row_assignments", "src/transition_rows.py:transition_rows"]}
{"id": "C110", "title": "Hyperparameter transitions target the posterior over the grid", "statement": "Over the hyperparameters that take one point from each grid, transition_hypers (which visits the hyperparameters in random order and resamples each given the others) keeps the distribution with weights exp of the joint score of the copies of the column, a repeated grid point counting as often as it is listed; and repeated from any point of the grid it approaches that distribution at a geometric rate. The objects are left with the hyperparameters that are returned.", "quantifier": "all non-empty lists of reachable objects of any class with hyperparameters (CRP, Categorical, Bernoulli, Normal, Poisson), all legal grids, any number of grid points", "why_tests_cant": "Invariance and convergence are statements about exact probabilities over all grid points and all orders of the hyperparameters; tests can only look at samples for a few grids.", "anchors": ["src/transition_hypers.py:transition_hypers", "src/transition_crosscat.py:GibbsCrossCat.transition_hypers_distributions"]}
{"id": "C111", "title": "Converting a state of cgpm keeps its contents", "statement": "convert_cgpm_state_to_cgpm2 turns a state of cgpm whose columns are Normal, Poisson or Categorical into a CrossCat that says the same, view by view: the same variables in the same order, the same cells and no other rows, rows in one cluster exactly when they were, and every component in every cluster with the type and hyperparameters of its dimension. The cluster numbers of the source may be any integers. It uses no random numbers and does not raise. A state with a Bernoulli column is never converted: KeyError.", "quantifier": "all states with at least one view, at least one column per view, any numbers of views, columns, rows and clusters, any order in which Python enumerates the set of cluster numbers", "why_tests_cant": "The cluster numbers are renumbered in an order that depends on how Python enumerates a set, and the rows are then observed in that order; tests see one enumeration and one state.", "anchors": ["src/conversion.py:convert_cgpm_state_to_cgpm2", "src/conversion.py:convert_view_to_rowmixture", "src/conversion.py:convert_dim_to_base_cgpm", "src/conversion.py:rebase_cgpm_row_assignments"]}
{"id": "C112", "title": "The tree of a converted state is the tree of the state", "statement": "convert_cgpm_to_ast applied to a CrossCat converted from a state of cgpm gives one pair per view, of the clustering and the list of columns in order, each with its class name, its number of categories if it is Categorical, and all hyperparameters of the class, those the state left out with their defaults. Observing the rows on the way does not change the tree.", "quantifier": "all states as in C111, any order in which Python enumerates the set of cluster numbers", "why_tests_cant": "The tree is read off a model that has been through any number of observe calls that create and fill clusters; that none of them touches what is read is a statement about all states.", "anchors": ["src/conversion.py:convert_cgpm_to_ast", "src/conversion.py:convert_cgpm_state_to_cgpm2"]}
{"id": "C113", "title": "GibbsCrossCat.transition keeps the joint posterior of clusters and hyperparameters", "statement": "If the state of a CrossCat (which rows are together in each view, and all hyperparameters of the columns and of the row CRPs, as points of the grids) is distributed in proportion to exp(logpdf_score()) before a call of GibbsCrossCat.transition(N, kernels=...) with any kernels other than view_assignments, then it is so distributed after the call. There are finitely many such states.", "quantifier": "all CrossCats reachable by legal calls with any number of views, columns, rows and clusters, any legal grids, any list of the four kernels in any order and with repetitions, any restriction to columns and rows, any N >= 1, any order in which Python enumerates its sets and dicts", "why_tests_cant": "It is an equality of probability distributions over all states; a test samples a few chains of one model, and would not see a kernel whose conditional weights are slightly off or which conditions on the wrong part of the state.", "anchors": ["src/transition_crosscat.py:GibbsCrossCat.transition", "src/transition_crosscat.py:GibbsCrossCat.transition_hypers_distributions", "src/transition_crosscat.py:GibbsCrossCat.transition_hypers_row_divide", "src/transition_crosscat.py:GibbsCrossCat.transition_row_assignments", "src/transition_hypers.py:transition_hypers", "src/transition_rows.py:transition_rows", "src/product.py:Product.logpdf_score"]}
{"id": "C114", "title": "GibbsCrossCat.transition converges to the joint posterior", "statement": "With the kernels row_assignments, hypers_distributions and hypers_row_divide (and possibly hypers_column_divide), the distribution of the state after GibbsCrossCat.transition(N) tends to the joint posterior of clusters and hyperparameters given the table, from any initial state, at a geometric rate: the probability of each state differs from its share of exp(logpdf_score()) by at most rho^N for one rho < 1.", "quantifier": "all CrossCats reachable by legal calls, all legal grids, all initial states, all lists of kernels that contain the three, all orders of enumeration", "why_tests_cant": "Convergence is a statement about all N and all starting points.", "anchors": ["src/transition_crosscat.py:GibbsCrossCat.transition", "src/transition_rows.py:transition_rows", "src/transition_hypers.py:transition_hypers"]}
{"id": "C116", "title": "The text of the Core DSL parses back to the AST", "statement": "parse_core_dsl_to_ast applied to the text written by compile_ast_to_core_dsl returns the same AST: the same views in the same order, in each the same row divider and the same distributions, each with its output, name, distargs and hypers. Numbers with more than four decimals come back changed by at most 1/20000; dicts without entries come back as None.", "quantifier": "every AST with at least one view and one distribution per view, any names made of letters and underscores, any dicts of numbers", "why_tests_cant": "ASTs of any size, any names and any numbers; the indentation has to be read back at every depth.", "anchors": ["src/sample_crosscat.py:compile_ast_to_core_dsl", "src/sample_crosscat.py:parse_core_dsl_to_ast", "src/sample_crosscat.py:core_parse_view"]}
{"id": "C117", "title": "interpret_ast builds the CrossCat an AST describes", "statement": "interpret_ast of an AST with legal hyperparameters of at most four decimals returns an empty CrossCat whose views have the variables, classes, numbers of categories and hyperparameters of the AST, and convert_crosscat_to_ast of it gives the AST back, with defaults for hyperparameters left out.", "quantifier": "every AST of Normal, Poisson and Categorical columns with CRP row dividers and distinct outputs", "why_tests_cant": "ASTs of any size, all hyperparameter values. Fails for hyperparameters that round to zero (generate_random_ast makes six decimals, the compiler writes four) and for distributions missing from the table of constructors.", "anchors": ["src/sample_crosscat.py:interpret_ast", "src/sample_crosscat.py:compile_core_dsl_to_embedded_dsl", "src/sample_crosscat.py:convert_crosscat_to_ast"]}
{"id": "C115", "title": "The law of a move of a column between views", "statement": "transition_cgpm_view_assigments(crosscat, [o]) applied to a column o that shares its view with another column returns the CrossCat in which o is in the i-th of the existing views with a chance proportional to exp(logpdf_score()) of that CrossCat (o staying where it is included), whatever new views are proposed next to them. If o is alone in its view and no new views are proposed, the chances are proportional to exp(logpdf_score()) times one factor exp(c) for all views other than its own, c being the part of the score of its view that comes from the clusters of the rows; so they are not proportional to exp(logpdf_score()) in general.", "quantifier": "all CrossCats reachable by legal calls with any number of views, columns, rows and clusters, whose views hold the same rows and whose copies of a column within a view have the same hyperparameters; any column, any number of new views, any state of the random number generator", "why_tests_cant": "It is an equality of probabilities that depends on all scores of the model; a test counts a few moves of one CrossCat and cannot tell a weight taken from the wrong view or a forgotten term from sampling noise.", "anchors": ["src/transition_views.py:transition_cgpm_view_assigments", "src/transition_views.py:get_cgpm_data_logp", "src/transition_views.py:get_cgpm_view_proposals_existing", "src/transition_views.py:get_cgpm_view_proposal_existing_one", "src/product.py:Product.logpdf_score", "src/flexible_rowmix.py:FlexibleRowMixture.logpdf_score"]}
{"id": "C118", "title": "The rendered VentureScript program describes the CrossCat", "statement": "render_trace_in_venturescript(crosscat, schema) succeeds and describes the CrossCat: every column, under its name in the schema, has exactly one entry with the position of its view and exactly one entry with its mixture, which has one component for each mixture weight of that view; in every view each row is given one component number, two rows the same number just if they are in the same cluster; the weights add up to one and the weight at the number of a row is the share of the rows that have that number; and the component at the number of a row is the maker call with the hyperparameters of the primitive that holds the cell of that row. It fails on a CrossCat whose rows have all been unobserved (TypeError, although it succeeds before the first observation), on a row of which only the cluster is observed, and on Bernoulli columns (AssertionError).", "quantifier": "all CrossCats reachable by legal calls with any number of views, columns, rows and clusters, in any cluster numbering, of normal, Poisson and categorical columns, where every view has a row and every row has a cell in every view; any schema of distinct names that covers the columns", "why_tests_cant": "The mixture components, weights and row numbers are written by three functions that each sort or count the clusters on their own; they agree by a relation over all cluster numberings and creation orders, of which a golden-file test compares one.", "anchors": ["src/sample_crosscat.py:render_trace_in_venturescript", "src/sample_crosscat.py:convert_trace_to_venturescript_ast", "src/sample_crosscat.py:get_view_representation", "src/sample_crosscat.py:get_crp_tables_weights", "src/sample_crosscat.py:get_array_distributions", "src/sample_crosscat.py:tranpose_product_list", "src/sample_crosscat.py:get_variables_to_view_assignment", "src/sample_crosscat.py:compile_distributions_view"]}
{"id": "C119", "title": "Random CrossCat programs", "statement": "generate_random_ast(schema, rng) returns an AST of the schema: every column appears once, in its own number, with the distribution and distargs of the schema; the views are the blocks of the partition generate_random_partition draws, none empty; the row dividers get consecutive numbers of the process-wide iterator; every hyperparameter the class needs, and no other, is a gamma variate of its own rounded to six decimals. interpret_ast of it builds a CrossCat with exactly the columns of the schema in the views of the AST. It fails with AssertionError on any other distribution, with StopIteration once the iterator has been used up, and gives a row divider the number of a column if the schema has more than 100000 columns.", "quantifier": "all schemas of any length and mix of distributions, all random states, any position of the iterator; for the second part normal, Poisson and categorical columns and gamma variates not below 0.000102", "why_tests_cant": "The AST depends on a random partition of any size and on global state shared between calls; a test runs one seed and one schema and never reaches the ends of the iterator.", "anchors": ["src/sample_crosscat.py:generate_random_ast", "src/sample_crosscat.py:generate_random_row_divider", "src/sample_crosscat.py:generate_random_hyperparameters", "src/sample_crosscat.py:sample_hyperparameter", "src/sample_crosscat.py:generate_output_ast", "src/sample_crosscat.py:interpret_ast"]}
{"id": "C120", "title": "Saving and loading a chain", "statement": "Chain.from_metadata(chain.to_metadata()) succeeds and gives a chain with the same accuracy, the same network and the same members in the same order, except for the user-supplied params of primitives; every later sequence of observe, unobserve, logpdf, simulate, logpdf_score, reading of outputs and inputs, and saving and loading, is answered by the copy as by the original. A logpdf, simulate or logpdf_score of a chain changes none of its later answers.", "quantifier": "all chains of primitives and composites of any depth, any accuracy, any network, after any calls (which may raise), all later sequences of calls, all random states", "why_tests_cant": "The statement is about all later sequences of calls on a copy of a chain with any history; a test compares a few calls for one chain and one seed.", "anchors": ["src/chain.py:Chain.to_metadata", "src/chain.py:Chain.from_metadata", "src/chain.py:Chain.__init__", "src/chain.py:Chain.simulate", "src/chain.py:Chain.logpdf", "src/chain.py:Chain.weighted_sample", "src/chain.py:Chain.observe", "src/chain.py:Chain.unobserve"]}
{"id": "C121", "title": "What the printed form tells", "statement": "Two primitives, or products of primitives nested to any depth, that render() alike give every query about a row that neither holds the same log density, or raise the same exception, and primitives that render alike have the same logpdf_score. This fails for a CRP, whose rendering gives the sizes of its tables but not their names (the log density differs), for NormalUC, whose rendering has no sufficient statistics (the score differs), and for a flexible array, whose rendering does not show the base from which new components are made (the log density of a new component differs).", "quantifier": "all primitives in any state, all products of them to any depth, all queries about a row that is not held", "why_tests_cant": "It compares all pairs of objects with one printed form and all queries; a test prints a few objects.", "anchors": ["src/distribution.py:DistributionCGPM.render", "src/product.py:Product.render", "src/flexible_array.py:FlexibleArray.render", "src/flexible_rowmix.py:FlexibleRowMixture.render", "src/finite_array.py:FiniteArray.render", "src/finite_rowmix.py:FiniteRowMixture.render", "src/chain.py:Chain.render", "src/icgpm.py:CGPM.render"]}
{"id": "C122", "title": "A chain without edges is a product", "statement": "A Chain and a Product of the same members observe and unobserve alike and have the same score. If a Product can be made of the members of a chain (no member's input is an output of one of them), then Chain and Product give a row the same log density, whatever the accuracy of the chain, provided that the members with a variable in the row find their inputs among the given inputs and that each member gives its part of the row a log density; also with constraints of positive density, if every member that has variables among both targets and constraints is a primitive, product or mixture without inputs that does not hold the row. With accuracy 1 and the members in topological order, a sample drawn by the chain without constraints is drawn by the product from the same random state too, and leaves the same random state behind. The agreement of log densities fails when the row itself has a value for an input (the chain hands it to the member, the product leaves it out and the member raises) and for a constraint with probability zero (the chain raises ValueError, the product ignores it).", "quantifier": "all chains of reachable models, regressions and forests, all accuracies, rows, inputs and random states", "why_tests_cant": "The chain samples with importance weights and the product adds log densities; a test compares the two on a few rows, for one accuracy and one seed.", "anchors": ["src/chain.py:Chain.logpdf", "src/chain.py:Chain.weighted_sample", "src/chain.py:Chain.invoke_cgpm", "src/product.py:Product.logpdf", "src/product.py:logpdf_one", "src/product.py:validate_cgpms_product", "src/chain.py:Chain.observe", "src/chain.py:Chain.unobserve", "src/chain.py:Chain.logpdf_score", "src/chain.py:Chain.simulate", "src/product.py:Product.simulate", "src/product.py:merge_samples"]}
