{"id": "C01", "title": "Expected paths solve the declared model", "statement": "For a model declared as A E[x(+1)] + B x + C x(-1) + D eps = 0 together with one constrained variable, whenever set_par succeeds, the expected path that t_func generates from any state and shock under an assumed spell (l,k) (slack for l periods, binding for k periods, slack afterwards) satisfies every declared equation in every period, the constraint equation in every slack period, and has the constrained variable equal to x_bar in every binding period.", "quantifier": "all linear models with one equation per variable whose constraint equation contains current variables and shocks only (shocks only if the constrained variable is not on its right hand side; for lags in the constraint see C23, C24), all parameter values for which set_par succeeds, all states, all shock vectors, all (l,k) up to (l_max,k_max), all periods of the expected path", "why_tests_cant": "The domain is infinite (all real-valued models, states and shocks); a test samples a handful of them.", "anchors": ["pydsge/gensys.py: gen_sys", "pydsge/engine.py: get_lam, get_omg, preprocess_jittable, t_func_jit", "pydsge/tools.py: t_func"]}
{"id": "C02", "title": "The simulated constrained variable never falls below its bound", "statement": "After any nonlinear t_func step with endogenously determined (l,k), from any state and with any shocks, and whatever error flag is returned, the constrained variable in the new state is at least x_bar.", "quantifier": "all solved models with k_max >= 1 whose constrained variable occurs in its own constraint row, all states, all shock vectors, all outcomes of the (l,k) search", "why_tests_cant": "The domain is infinite (all real-valued models, states and shocks); a test samples a handful of them.", "anchors": ["pydsge/engine.py: find_lk, bruite_wrapper, t_func_jit", "pydsge/tools.py: t_func", "pydsge/gensys.py: gen_sys"]}
{"id": "C03", "title": "Flag 0 means the constraint holds as r = max(notional, x_bar)", "statement": "If t_func returns flag 0, the constrained variable in the new state equals the maximum of x_bar and the value that the right hand side of the constraint equation takes in the same new state.", "quantifier": "all solved models with k_max >= 1 whose constraint equation contains current variables other than the constrained one, and shocks; all states, all shock vectors", "why_tests_cant": "The domain is infinite (all real-valued models, states and shocks); a test samples a handful of them.", "anchors": ["pydsge/engine.py: find_lk, bruite_wrapper, check_cnst, t_func_jit", "pydsge/gensys.py: gen_sys"]}
{"id": "C04", "title": "The (l,k) search is sound, complete and minimal", "statement": "t_func returns (0,0) with flag 0 iff the unconstrained path stays strictly above x_bar in all periods 0..l_max; otherwise it returns flag 0 iff some (l,k) with k>=1 inside (l_max,k_max) passes the five equilibrium checks, and then the returned (l,k) is the lexicographically smallest such pair.", "quantifier": "all solved models with tables of at most 999 rows (l_max < 999; larger tables: C64) and at least one binding column (k_max >= 1; otherwise C05), all states, all shocks, all bounds", "why_tests_cant": "The search space is unbounded in the table size and the real-valued table; tests cannot cover all orderings of passing cells.", "anchors": ["pydsge/engine.py: find_lk, bruite_wrapper"]}
{"id": "C05", "title": "The (l,k) search terminates inside the precomputed tables", "statement": "For every state, the search for (l,k) terminates and only reads table cells that exist, so t_func never reads outside its precomputed arrays (numba does not check bounds).", "quantifier": "all table contents, all l_max, k_max that gen_sys can produce, all states", "why_tests_cant": "Out-of-range reads are silent in nopython mode and depend on the state; a test would see garbage only by luck.", "anchors": ["pydsge/engine.py: find_lk, bruite_wrapper", "pydsge/estimation.py: prep_estim", "pydsge/gensys.py: gen_sys"]}
{"id": "C06", "title": "No uninitialised table cell is ever used", "statement": "The precomputed tables are allocated without initialisation; every cell that preprocessing itself or the (l,k) search reads has been written before.", "quantifier": "all l_max, k_max, all loop iterations, all cells read by the search", "why_tests_cant": "Uninitialised memory usually looks plausible; a test cannot observe that a cell was read before being written.", "anchors": ["pydsge/engine.py: preprocess_jittable, preprocess_tmats_jit, find_lk, bruite_wrapper"]}
{"id": "C07", "title": "Parallel preprocessing equals serial preprocessing", "statement": "Preprocessing with parallel=True yields the same tables as parallel=False for every order in which the parallel loop iterations are executed.", "quantifier": "all models, all l_max, k_max, all schedules (permutations of the parallel iterations)", "why_tests_cant": "The number of schedules grows factorially; a run only shows one.", "anchors": ["pydsge/engine.py: preprocess_jittable, preprocess_tmats_jit, preprocess"]}
{"id": "C08", "title": "The linear solution is the same object everywhere", "statement": "The transition used for linear=True (cell (0,0)) coincides with the transition assumed when the constraint is never expected to bind at any horizon (cells (l,0)), in particular with the cell (1,0) that the Kalman filter, the initial covariance and the shock extraction use.", "quantifier": "all solved models, all l up to l_max", "why_tests_cant": "The domain is infinite (all real-valued models, states and shocks); a test samples a handful of them.", "anchors": ["pydsge/engine.py: preprocess_jittable", "pydsge/filtering.py: run_filter, get_eps_lin, get_p_init_lyapunov", "pydsge/tools.py: t_func"]}
{"id": "C09", "title": "Linear simulations obey superposition", "statement": "With linear=True, t_func and irfs are linear maps of (initial state, shock sequence): responses add up and scale with the shock sizes, at every horizon.", "quantifier": "all solved models, all horizons, all states, all shock lists, all scale factors", "why_tests_cant": "The domain is infinite (all real-valued models, states and shocks); a test samples a handful of them.", "anchors": ["pydsge/tools.py: t_func, irfs", "pydsge/engine.py: t_func_jit"]}
{"id": "C10", "title": "The steady state is a fixed point", "statement": "If x_bar < 0, t_func from the zero state with zero shocks returns the zero state, (l,k) = (0,0) and flag 0, so a simulation without shocks started in the steady state stays there forever.", "quantifier": "all solved models with x_bar < 0, all horizons", "why_tests_cant": "The domain is infinite (all real-valued models, states and shocks); a test samples a handful of them.", "anchors": ["pydsge/engine.py: find_lk, t_func_jit", "pydsge/tools.py: t_func, irfs"]}
{"id": "C11", "title": "Precomputed constraint values equal simulated ones", "statement": "Each precomputed constraint coefficient gives, for every state, exactly the value the constraint expression takes in the corresponding period (0, l-1, l, l+k-1, l+k, or any s for the trajectory tables) when the path is simulated step by step under (l,k).", "quantifier": "all tables, all (l,k), all periods, all states", "why_tests_cant": "The domain is infinite (all real-valued models, states and shocks); a test samples a handful of them.", "anchors": ["pydsge/engine.py: preprocess_jittable, preprocess_tmats_jit, check_cnst"]}
{"id": "C12", "title": "traj returns the trajectory for the equilibrium it reports", "statement": "traj(state) returns the expected trajectory of the constraint value under the (l,k) that it determined (or was given) for that state.", "quantifier": "all solved models, all states, all (l,k)", "why_tests_cant": "The domain is infinite (all real-valued models, states and shocks); a test samples a handful of them.", "anchors": ["pydsge/tools.py: traj", "pydsge/engine.py: preprocess_tmats_jit"]}
{"id": "C13", "title": "k_map and traj use the current parameters", "statement": "After any sequence of set_par, k_map and traj calls, the result of k_map or traj is the one implied by the current parameters and the current l_max, k_max.", "quantifier": "all finite call histories", "why_tests_cant": "It must hold after every history of calls; a test exercises a few orders.", "anchors": ["pydsge/tools.py: traj, k_map", "pydsge/engine.py: preprocess_tmats"]}
{"id": "C14", "title": "Imposing the equilibrium that was found changes nothing", "statement": "If t_func finds (l,k) endogenously with flag 0, then calling t_func on the same state and shocks with set_k=(l,k) returns the same new state.", "quantifier": "all solved models, states, shocks", "why_tests_cant": "The domain is infinite (all real-valued models, states and shocks); a test samples a handful of them.", "anchors": ["pydsge/tools.py: t_func", "pydsge/engine.py: t_func_jit"]}
{"id": "C15", "title": "Without new shocks the imposed spell continues consistently", "statement": "Starting from any state and shock under (l,k), simulating forward without shocks while imposing the spell that has elapsed by one period ((l-1,k), then (0,k-1), ...) reproduces the expected path of the first period exactly.", "quantifier": "all solved models, states, shocks, (l,k), horizons", "why_tests_cant": "The domain is infinite (all real-valued models, states and shocks); a test samples a handful of them.", "anchors": ["pydsge/tools.py: irfs", "pydsge/engine.py: preprocess_jittable, t_func_jit"]}
{"id": "C16", "title": "irfs applies an imposed set_k as a spell that elapses with time, or raises", "statement": "For an imposed set_k (pair or positive integer) irfs uses in period t the spell that has elapsed by t periods, it raises IndexError iff the spell exceeds the precomputed (l_max,k_max), and never addresses a table cell outside the precomputed range.", "quantifier": "all set_k that are a pair of non-negative integers, a positive integer or True; all horizons T, all shock lists, all l_max, k_max; default force_init_equil", "why_tests_cant": "Unbounded combinations of set_k, t and table bounds.", "anchors": ["pydsge/tools.py: irfs, t_func"]}
{"id": "C17", "title": "irfs for several parameter sets is independent of order and leaves the model untouched", "statement": "irfs(shocks, pars) returns for each parameter vector the response that this vector alone would give, independent of the other vectors and their order, and the current parameters and solution of the model object are unchanged afterwards.", "quantifier": "all lists of parameter vectors, all model states, all permutations", "why_tests_cant": "It must hold after every history of calls; a test exercises a few orders.", "anchors": ["pydsge/tools.py: irfs", "pydsge/estimation.py: mapper"]}
{"id": "C18", "title": "force_init_equil keeps the initial equilibrium", "statement": "With force_init_equil true (the default), the equilibrium (l,k) is recomputed only in periods in which a shock occurs; in all other periods after the first shock the previous spell is continued.", "quantifier": "all shock lists, all states, all horizons", "why_tests_cant": "Depends on every combination of shock timing and horizon.", "anchors": ["pydsge/tools.py: irfs"]}
{"id": "C19", "title": "simulate is the iterated transition function", "statement": "For each sample, simulate returns init followed by one state per row of residuals, each obtained by t_func from the previous one; splitting the residuals at any point and continuing from the state reached there gives the same path; entries of mask that are NaN leave the residual untouched and all other entries are replaced by operation(mask, residual); the summary flag is set iff some period returned a flag.", "quantifier": "all residual sequences of any length, all masks, all split points, all samples", "why_tests_cant": "The domain is infinite (all real-valued models, states and shocks); a test samples a handful of them.", "anchors": ["pydsge/tools.py: simulate"]}
{"id": "C20", "title": "Observables computed inside and outside the transition agree", "statement": "t_func(..., get_obs=True) returns the same observables as applying obs to the state returned by t_func without get_obs.", "quantifier": "all solved models, states, shocks, set_k", "why_tests_cant": "The domain is infinite (all real-valued models, states and shocks); a test samples a handful of them.", "anchors": ["pydsge/engine.py: t_func_jit", "pydsge/tools.py: o_func, t_func"]}
{"id": "C21", "title": "Observables equal the declared measurement equations", "statement": "obs(state) evaluates the declared (linear) measurement equation of each observable at the values the variables take in the state.", "quantifier": "all declared linear measurement equations, all states", "why_tests_cant": "The domain is infinite (all real-valued models, states and shocks); a test samples a handful of them.", "anchors": ["pydsge/parser.py: DSGE.get_matrices", "pydsge/gensys.py: gen_sys", "pydsge/tools.py: o_func"]}
{"id": "C22", "title": "Confidence intervals are ordered", "statement": "When covariances are supplied, obs returns intervals whose lower bound is not above the point value, which is not above the upper bound, for every state variable and every observable.", "quantifier": "all loadings, states and covariance diagonals", "why_tests_cant": "The domain is infinite (all real-valued models, states and shocks); a test samples a handful of them.", "anchors": ["pydsge/tools.py: o_func"]}
{"id": "C23", "title": "The constraint equation enters with the declared coefficients", "statement": "The solved system uses the constraint equation exactly as declared in the YAML file, including lagged variables and shocks on its right hand side.", "quantifier": "all constraint equations linear in current variables, lagged variables and shocks", "why_tests_cant": "The domain is infinite (all real-valued models, states and shocks); a test samples a handful of them.", "anchors": ["pydsge/parser.py: DSGE.get_matrices", "pydsge/gensys.py: gen_sys_from_yaml, gen_sys"]}
{"id": "C24", "title": "No forward-looking term is lost", "statement": "Every expectation term that appears in a declared equation is part of the solved system.", "quantifier": "all linear models, including those whose constraint depends on lags of forward-looking variables", "why_tests_cant": "The domain is infinite (all real-valued models, states and shocks); a test samples a handful of them.", "anchors": ["pydsge/gensys.py: gen_sys"]}
{"id": "C25", "title": "Auxiliary lag variables do not change the model", "statement": "Variables that appear both with a lead and with a lag are split by auxiliary `_lag` variables; a path satisfies the augmented system iff its restriction to the declared variables satisfies the declared system.", "quantifier": "all linear models, all paths", "why_tests_cant": "The domain is infinite (all real-valued models, states and shocks); a test samples a handful of them.", "anchors": ["pydsge/gensys.py: gen_sys"]}
{"id": "C26", "title": "The state vector lists each variable exactly once", "statement": "After gen_sys, the variable list vv (controls first, then states) contains every declared variable that occurs in the equations, and every auxiliary variable, exactly once, and dimp + dimq - dimeps is its length whenever every shock has an effect.", "quantifier": "all linear models", "why_tests_cant": "The domain is infinite (all real-valued models, states and shocks); a test samples a handful of them.", "anchors": ["pydsge/gensys.py: gen_sys"]}
{"id": "C27", "title": "l_max and k_max are sticky", "statement": "After gen_sys with explicit l_max and k_max, every later gen_sys / set_par without them keeps the same effective bounds; the effective l_max is never below 3 if k_max > 0 was given with l_max, and the tables have exactly (l_max+1) x (k_max+1) cells.", "quantifier": "all sequences of set_par calls with and without bounds", "why_tests_cant": "It must hold after every history of calls; a test exercises a few orders.", "anchors": ["pydsge/gensys.py: gen_sys", "pydsge/engine.py: preprocess_jittable"]}
{"id": "C28", "title": "x_bar is taken from the declared place and is never positive", "statement": "After a successful gen_sys, x_bar is the value of the parameter x_bar if declared, else of the parameter function x_bar, else -1, and it is not positive; a positive value raises NotImplementedError.", "quantifier": "all parameter vectors and declarations", "why_tests_cant": "The domain is infinite (all real-valued models, states and shocks); a test samples a handful of them.", "anchors": ["pydsge/gensys.py: gen_sys_from_yaml"]}
{"id": "C29", "title": "A failed set_par leaves the model unchanged", "statement": "If set_par raises (for instance because no stable solution exists for the parameters), the parameters reported by get_par and the transition function are as before the call.", "quantifier": "all parameter vectors, all failure points, all previous states of the model", "why_tests_cant": "Requires a crash at every point of the pipeline.", "anchors": ["pydsge/mpile.py: set_par", "pydsge/gensys.py: gen_sys_from_yaml, gen_sys"]}
{"id": "C30", "title": "set_par / get_par round trip for a single parameter", "statement": "After set_par(name, value) succeeds, get_par(name) returns value, every other parameter is unchanged, and set_par returned the full vector that get_par() returns.", "quantifier": "all models, parameter names, values, current parameter vectors", "why_tests_cant": "The domain is infinite (all real-valued models, states and shocks); a test samples a handful of them.", "anchors": ["pydsge/mpile.py: set_par, get_par"]}
{"id": "C31", "title": "set_par accepts full and estimated-only vectors", "statement": "set_par(v) with len(v) equal to the number of parameters sets all parameters to v; otherwise, with len(v) equal to the number of estimated parameters, it sets exactly the estimated parameters, in the order of the prior, and keeps the others.", "quantifier": "all models, all vectors", "why_tests_cant": "The domain is infinite (all real-valued models, states and shocks); a test samples a handful of them.", "anchors": ["pydsge/mpile.py: set_par"]}
{"id": "C32", "title": "set_par with npar edits the named entry of a copy", "statement": "set_par(name, value, npar=v) returns a copy of v in which exactly the entry that belongs to the parameter `name` is replaced by value, and neither v nor the model is changed.", "quantifier": "all models, names, values, vectors", "why_tests_cant": "The domain is infinite (all real-valued models, states and shocks); a test samples a handful of them.", "anchors": ["pydsge/mpile.py: set_par"]}
{"id": "C33", "title": "set_par on a named parameter set equals get_par of that set", "statement": "For every named set of parameters ('calib', 'init', 'best', 'mode', 'prior_mean', ...) for which get_par returns a vector, set_par with the same name sets the parameters to this vector.", "quantifier": "all models (any number of parameters and priors), all set names", "why_tests_cant": "Depends on coincidences between string lengths and model sizes that a test with one model never meets.", "anchors": ["pydsge/mpile.py: set_par, get_par", "pydsge/estimation.py: prep_estim"]}
{"id": "C34", "title": "get_par only reads", "statement": "get_par does not change the current parameters: get_par() returns the same vector before and after any get_par call.", "quantifier": "all models, all get_par arguments, all call histories", "why_tests_cant": "It must hold after every history of calls; a test exercises a few orders.", "anchors": ["pydsge/mpile.py: get_par"]}
{"id": "C35", "title": "box_check reports exactly the parameters outside their bounds", "statement": "box_check reports a parameter iff its value lies outside its declared prior bounds, both for an explicitly given vector of estimated parameters and for the default (the current parameters).", "quantifier": "all models, all parameter vectors, all bounds", "why_tests_cant": "The domain is infinite (all real-valued models, states and shocks); a test samples a handful of them.", "anchors": ["pydsge/mpile.py: box_check"]}
{"id": "C36", "title": "Higher lags of endogenous variables are represented exactly", "statement": "If the parser accepts a system, a path solves the system after parsing iff (extended by the lag variables) it solves the equations as written, for arbitrary lags of endogenous variables; after parsing only dates -1, 0 and 1 are left.", "quantifier": "all systems of equations with leads of at most two periods (see C37 for longer ones), all lag lengths, all paths", "why_tests_cant": "The domain is infinite (all real-valued models, states and shocks); a test samples a handful of them.", "anchors": ["pydsge/parser.py: DSGE.parse"]}
{"id": "C37", "title": "Higher leads of endogenous variables are represented exactly", "statement": "A path solves the system after parsing iff (extended by the lead variables) it solves the equations as written, for arbitrary leads of endogenous variables.", "quantifier": "all systems of equations, all lead lengths, all paths", "why_tests_cant": "The domain is infinite (all real-valued models, states and shocks); a test samples a handful of them.", "anchors": ["pydsge/parser.py: DSGE.parse"]}
{"id": "C38", "title": "Lagged shocks are represented exactly", "statement": "A path solves the system after parsing iff it solves the equations as written, for equations that contain shocks with arbitrary lags.", "quantifier": "all systems of equations with leads of at most two periods (see C37), all lag lengths of shocks, all paths", "why_tests_cant": "The domain is infinite (all real-valued models, states and shocks); a test samples a handful of them.", "anchors": ["pydsge/parser.py: DSGE.parse"]}
{"id": "C39", "title": "The numeric matrices reproduce the linear equations", "statement": "For every model equation that is linear in variables and shocks, lhs - rhs equals AA x(+1) + BB x + CC x(-1) - PSI eps with the matrices the parser builds, for all values of the variables and shocks.", "quantifier": "all expressions linear in variables with dates in {-1,0,1} and contemporaneous shocks, all parameter values", "why_tests_cant": "The domain is infinite (all real-valued models, states and shocks); a test samples a handful of them.", "anchors": ["pydsge/parser.py: DSGE.get_matrices"]}
{"id": "C40", "title": "Parameter functions are resolved independently of their order", "statement": "The parafunc section is accepted iff its definitions can be ordered such that each one only refers to parameters, known functions and earlier definitions; the resulting values do not depend on the order in which the definitions are listed; resolution always terminates.", "quantifier": "all finite parafunc sections and all orders of their entries", "why_tests_cant": "Factorially many orders and unbounded dependency chains.", "anchors": ["pydsge/parser.py: DSGE.get_matrices"]}
{"id": "C41", "title": "Covariance entries are symmetric and off-diagonal entries are honoured", "statement": "The shock covariance and measurement error matrices are symmetric with the declared values at the declared positions, including off-diagonal entries declared with a key `a,b`.", "quantifier": "all covariance sections", "why_tests_cant": "The domain is infinite (all real-valued models, states and shocks); a test samples a handful of them.", "anchors": ["pydsge/parser.py: DSGE.parse"]}
{"id": "C42", "title": "A model that is read corresponds to the files on disk", "statement": "DSGE.read returns a model that was parsed from the present contents of the YAML file and of its functions file, and whose path is the directory of the file that was read, for every history of earlier reads in the same process.", "quantifier": "all histories of reads and file changes", "why_tests_cant": "It must hold after every history of calls; a test exercises a few orders.", "anchors": ["pydsge/parser.py: crawl_cached_models, DSGE.read"]}
{"id": "C43", "title": "Function caches are transparent", "statement": "Wrapping user functions with the call cache does not change any result: for a function that always returns the same value for the same arguments, every call in any sequence of calls returns that value.", "quantifier": "all sequences of calls to all wrapped functions", "why_tests_cant": "It must hold after every history of calls; a test exercises a few orders.", "anchors": ["pydsge/parser.py: DSGE.get_matrices (ctf_reducer)"]}
{"id": "C44", "title": "Evaluating the posterior is pure", "statement": "lprob(par) leaves numpy's global random state as it found it, unless interrupted from the keyboard, and its value does not depend on which parameter vectors were evaluated before.", "quantifier": "all sequences of lprob calls, all parameter vectors, all failure outcomes of the likelihood", "why_tests_cant": "It must hold after every history of calls; a test exercises a few orders.", "anchors": ["pydsge/estimation.py: prep_estim (llike, lprob)"]}
{"id": "C45", "title": "lprob is total and has the documented value", "statement": "lprob never raises on account of the likelihood; it returns the prior density (and does not run the filter) if the prior is infinite, minus infinity if the model cannot be solved or filtered, and otherwise temp * log-likelihood + log-prior, with temp=0 giving the prior alone.", "quantifier": "all parameter vectors, non-negative temperatures, likelihood outcomes including NaN and exceptions", "why_tests_cant": "The domain is infinite (all real-valued models, states and shocks); a test samples a handful of them.", "anchors": ["pydsge/estimation.py: prep_estim (llike, lprob)", "pydsge/filtering.py: run_filter, get_ll"]}
{"id": "C46", "title": "The stored mode is the best sampled draw", "statement": "After mcmc with temp=1, mode_f is the largest log probability among the last `tune` draws of all walkers and mode_x is the parameter vector of a draw that attains it.", "quantifier": "all chains of any size, all positive tune", "why_tests_cant": "The domain is infinite (all real-valued models, states and shocks); a test samples a handful of them.", "anchors": ["pydsge/mcmc.py: mcmc"]}
{"id": "C47", "title": "mcmc works with its default arguments", "statement": "mcmc completes for every value of tune including the default None (which means a fifth of nsteps).", "quantifier": "all tune including None, all chains", "why_tests_cant": "Needs a full sampling run per case; the failure is after sampling.", "anchors": ["pydsge/mcmc.py: mcmc"]}
{"id": "C48", "title": "Stored chains are only replaced on purpose", "statement": "mcmc never deletes or resets an existing backend if resume or append is requested, and a call that raises because of missing arguments leaves an existing backend untouched.", "quantifier": "all argument combinations, all file system states", "why_tests_cant": "Crash points and file system states are not enumerable by tests.", "anchors": ["pydsge/mcmc.py: mcmc"]}
{"id": "C49", "title": "Worker pools are always usable", "statement": "After any sequence of prep_estim, create_pool, irfs, simulate, extract, prior_sampler and mcmc calls (with any debug / ncores settings), a further irfs or simulate call does not fail because of the pool.", "quantifier": "all call histories", "why_tests_cant": "It must hold after every history of calls; a test exercises a few orders.", "anchors": ["pydsge/estimation.py: create_pool, mapper, prep_estim", "pydsge/tools.py: irfs, simulate", "pydsge/filtering.py: extract"]}
{"id": "C50", "title": "Estimation settings persist", "statement": "Settings given to prep_estim (N, linear, seed, use_prior_transform) are stored and a later prep_estim without arguments uses the same settings and creates the same type of filter.", "quantifier": "all settings, all sequences of prep_estim calls", "why_tests_cant": "It must hold after every history of calls; a test exercises a few orders.", "anchors": ["pydsge/estimation.py: prep_estim"]}
{"id": "C51", "title": "The Kalman filter runs on the linear model", "statement": "run_filter with the linear filter sets up F, E, H such that F x + E eps is the linear t_func of x and eps and H x + c are its observables, and repeating run_filter without changing parameters uses the same matrices and covariance again.", "quantifier": "all solved models, states, shocks, all repetitions", "why_tests_cant": "It must hold after every history of calls; a test exercises a few orders.", "anchors": ["pydsge/filtering.py: run_filter, create_filter"]}
{"id": "C52", "title": "The initial covariance is stationary", "statement": "The default initial covariance P of the filters satisfies P = F P F' + E Q E' for the linear transition of the full state.", "quantifier": "all solved models, all Q", "why_tests_cant": "The domain is infinite (all real-valued models, states and shocks); a test samples a handful of them.", "anchors": ["pydsge/filtering.py: run_filter, get_p_init_lyapunov"]}
{"id": "C53", "title": "Extracted linear shocks reproduce the path", "statement": "simulate with linear=True on the initial state and residuals that extract returned for the Kalman filter reproduces the path extract computed, and this path equals the smoothed states whenever these are attainable by some shocks.", "quantifier": "all smoothed state sequences of any length", "why_tests_cant": "The domain is infinite (all real-valued models, states and shocks); a test samples a handful of them.", "anchors": ["pydsge/filtering.py: extract, get_eps_lin", "pydsge/tools.py: simulate"]}
{"id": "C54", "title": "Filtering input is validated and the likelihood is never NaN", "statement": "run_filter raises NotImplementedError iff the data has one column or a number of columns other than the number of shocks (provided the filter itself does not raise it); whenever the filter runs through, get_ll returns a number that is not NaN, with NaN reported as minus infinity and all else unchanged.", "quantifier": "all data shapes, all likelihood values", "why_tests_cant": "The domain is infinite (all real-valued models, states and shocks); a test samples a handful of them.", "anchors": ["pydsge/filtering.py: run_filter, get_ll"]}
{"id": "C55", "title": "extract retries with a different seed", "statement": "If an attempt to extract the shocks of one sample fails, extract retries up to nattemps times with a different seed, and fails only if all of these attempts fail.", "quantifier": "all failure patterns over seeds, all nattemps", "why_tests_cant": "Depends on which random seeds fail.", "anchors": ["pydsge/filtering.py: extract"]}
{"id": "C56", "title": "Variance shares add up to one", "statement": "Each column of the gfevd result consists of non-negative shares that sum to one, whenever some shock moves the variable in some draw.", "quantifier": "all response samples, all numbers of draws, shocks and variables", "why_tests_cant": "The domain is infinite (all real-valued models, states and shocks); a test samples a handful of them.", "anchors": ["pydsge/stats.py: gfevd"]}
{"id": "C57", "title": "Historic decompositions add up", "statement": "For every sample and period, the contributions of all shocks returned by nhd sum to the simulated state.", "quantifier": "all residual sequences, initial states, spell histories", "why_tests_cant": "The domain is infinite (all real-valued models, states and shocks); a test samples a handful of them.", "anchors": ["pydsge/stats.py: nhd"]}
{"id": "C58", "title": "sort_nhd bands are consecutive and exact", "statement": "sort_nhd returns for each contribution a positive and a negative band; each band starts where the previous one ends, the first starts at zero, bands never overlap, and the last positive plus the last negative edge equal the sum of all contributions.", "quantifier": "all lists of contributions of any length", "why_tests_cant": "The domain is infinite (all real-valued models, states and shocks); a test samples a handful of them.", "anchors": ["pydsge/stats.py: sort_nhd"]}
{"id": "C59", "title": "Posterior samples come from the kept part of the chain", "statement": "get_sample / posterior sampling return draws of the chain; posterior sampling only uses the last `tune` draws of all walkers; get_sample(size) returns size distinct recent draws if size is not larger than the number of recent draws.", "quantifier": "all chains, sizes, walkers, random choices", "why_tests_cant": "The domain is infinite (all real-valued models, states and shocks); a test samples a handful of them.", "anchors": ["pydsge/clsmethods.py: get_sample", "pydsge/mpile.py: posterior_sampler"]}
{"id": "C60", "title": "Saved results can be loaded under the same name", "statement": "load_rdict(path, suffix) returns the dictionary that the last save_rdict(rdict, path, suffix) with the same arguments stored.", "quantifier": "all paths and suffixes, all dictionaries, all histories of saves", "why_tests_cant": "Depends on every string that a user may pass as path or suffix.", "anchors": ["pydsge/clsmethods.py: save_rdict, load_rdict"]}
{"id": "C61", "title": "load_data delivers complete data in model order", "statement": "load_data succeeds only if every observable is a column and no value in the selected range is missing; the result then has exactly the observables as columns, in the model's order, and the selected rows, and is what the filter uses; on failure the previously loaded data stay.", "quantifier": "all data frames, ranges and observable lists", "why_tests_cant": "The domain is infinite (all real-valued models, states and shocks); a test samples a handful of them.", "anchors": ["pydsge/clsmethods.py: load_data", "pydsge/filtering.py: create_filter, run_filter"]}
{"id": "C62", "title": "Variable and observable indices are correct", "statement": "vix and oix return for each requested name the position at which it occurs in the model's list, in the order requested; unknown names raise, except that vix with dontfail skips exactly these.", "quantifier": "all variable lists and requests", "why_tests_cant": "The domain is infinite (all real-valued models, states and shocks); a test samples a handful of them.", "anchors": ["pydsge/clsmethods.py: vix, oix"]}
{"id": "C63", "title": "Time shifts of symbols compose", "statement": "Shifting a model symbol by a and then by b periods is the same as shifting it by a+b, keeps its name and kind, and two symbols of one kind are equal iff name and date agree; the printed form of a shifted symbol reads back as the same symbol.", "quantifier": "all names, all dates, all shifts", "why_tests_cant": "The domain is infinite (all real-valued models, states and shocks); a test samples a handful of them.", "anchors": ["pydsge/symbols.py: TSymbol"]}
{"id": "C64", "title": "The search result does not depend on the 999 sentinel", "statement": "For tables with 1000 or more rows, too, t_func returns flag 0 and the lexicographically smallest consistent pair whenever a consistent pair exists.", "quantifier": "all constraint-value tables of any size", "why_tests_cant": "Needs tables with a thousand rows whose only consistent pair lies in row 999; a test suite never constructs one.", "anchors": ["pydsge/engine.py: find_lk, bruite_wrapper"]}
{"id": "C65", "title": "k_map reports the constraint values of the spells it enumerates", "statement": "With freshly computed trajectory tables, k_map returns for every i < l_max the expected constraint value (less x_bar) at the end of the spell (i,k), in period i+k, and for every i < k_max the one at the end of the spell (l,i), in period l+i, where (l,k) are the given or the found equilibrium.", "quantifier": "all solved models, all states, all l, k within the precomputed range, all parallel schedules", "why_tests_cant": "The domain is infinite (all real-valued models and states, all table sizes); a test samples a handful of them.", "anchors": ["pydsge/tools.py: k_map", "pydsge/engine.py: preprocess_tmats_jit"]}
{"id": "C66", "title": "A list of shocks is the sum of its entries", "statement": "irfs with a list of shocks applies in period t to shock e the sum of all sizes given for (e,t).", "quantifier": "all shock lists, all periods", "why_tests_cant": "All combinations of names, sizes and periods, including repetitions.", "anchors": ["pydsge/tools.py: irfs"]}
{"id": "C67", "title": "Impulse responses respect the bound", "statement": "If no equilibrium is imposed, every state returned by irfs has the constrained variable at or above its bound.", "quantifier": "all solved models with k_max >= 1, all shock lists, all initial states, all horizons, default force_init_equil", "why_tests_cant": "The domain is infinite; the violation needs an initial state below the bound together with a shock in a later period.", "anchors": ["pydsge/tools.py: irfs"]}
{"id": "C68", "title": "obs works for a single state", "statement": "obs(state) of one state vector returns its observables.", "quantifier": "all models, all numbers of observables", "why_tests_cant": "Depends on the number of observables of the model, which a test fixes.", "anchors": ["pydsge/tools.py: o_func"]}
{"id": "C69", "title": "simulate works without a source", "statement": "simulate(pars=..., resid=..., init=...) with all three given works without the source dictionary.", "quantifier": "all arguments", "why_tests_cant": "Every combination of given and missing arguments.", "anchors": ["pydsge/tools.py: simulate"]}
{"id": "C70", "title": "Intervals of observables have the width they claim", "statement": "obs(state, covs) returns for each observable an interval of plus/minus 1.96 standard deviations of that observable under the given covariance.", "quantifier": "all models, all covariance matrices", "why_tests_cant": "All loadings and covariances.", "anchors": ["pydsge/tools.py: o_func"]}
{"id": "C71", "title": "l_max can be given without k_max", "statement": "gen_sys / set_par with l_max only keeps the previous (or default) k_max and succeeds in setting the bounds.", "quantifier": "all l_max, all previous bounds", "why_tests_cant": "It must hold after every history of calls; a test exercises a few orders.", "anchors": ["pydsge/gensys.py: gen_sys"]}
{"id": "C72", "title": "Zero shock loadings in the constraint equal no shock loadings", "statement": "gen_sys with fd = 0 builds the same system as gen_sys with fd = None.", "quantifier": "all models and constraints", "why_tests_cant": "The domain is infinite (all real-valued models, states and shocks); a test samples a handful of them.", "anchors": ["pydsge/gensys.py: gen_sys, gen_sys_from_dict"]}
{"id": "C73", "title": "Estimated parameters can be fed back", "statement": "set_par applied to the vector that get_par(full=False) returns leaves all parameters as they are.", "quantifier": "all models, all current parameters, all orders of the prior section", "why_tests_cant": "Depends on coincidences between the prior section and the parameter section that a test with one model never meets.", "anchors": ["pydsge/mpile.py: set_par, get_par"]}
{"id": "C74", "title": "Constant terms in model equations are kept or rejected", "statement": "A model equation with a non-zero constant term is either represented with its constant or rejected by the parser.", "quantifier": "all affine equations, all parameter values", "why_tests_cant": "All expressions that evaluate to something with a constant under some calibration; a test has a few.", "anchors": ["pydsge/parser.py: DSGE.get_matrices"]}
{"id": "C75", "title": "The stored mode is a parameter vector", "statement": "After mcmc, mode_x (used by set_par('mode')) is a parameter vector whose posterior density is mode_f, also if the prior transformation is used.", "quantifier": "all models, chains and transformations", "why_tests_cant": "Needs a sampling run with a non-trivial transformation; the result looks plausible.", "anchors": ["pydsge/mcmc.py: mcmc", "pydsge/estimation.py: prep_estim", "pydsge/mpile.py: get_par"]}
{"id": "C76", "title": "Default starting values of the sampler", "statement": "If p0 is not given, mcmc starts the sampler from an array with one row of parameters for each of the nwalks walkers.", "quantifier": "all models, all nwalks, all temperatures", "why_tests_cant": "A misspelt keyword is silently swallowed; depends on attributes set by earlier calls.", "anchors": ["pydsge/mcmc.py: mcmc", "pydsge/mpile.py: get_par"]}
{"id": "C77", "title": "prep_estim() repeats the previous set-up", "statement": "prep_estim without arguments, after an earlier call, uses the same bounds l_max and k_max and seeds the generator in the same way.", "quantifier": "all arguments of the earlier call, all stored settings", "why_tests_cant": "It must hold after every history of calls; a test exercises a few orders.", "anchors": ["pydsge/estimation.py: prep_estim"]}
{"id": "C78", "title": "mbcs_index works", "statement": "mbcs_index returns an index for every result of gfevd of the same model.", "quantifier": "all models with observables and states, all variance decompositions", "why_tests_cant": "The function has no test; a test with one model would not show that it fails for every model with states.", "anchors": ["pydsge/stats.py: mbcs_index"]}
{"id": "C79", "title": "post_mean averages the kept draws", "statement": "post_mean returns the parameter averages over the last tune draws of all walkers, of the given chain or else of the stored chain.", "quantifier": "all chains, all numbers of walkers, parameters and tune", "why_tests_cant": "Requires sampling runs; the set of chains is infinite.", "anchors": ["pydsge/stats.py: post_mean"]}
{"id": "C80", "title": "The error flag of irfs covers all periods", "statement": "irfs returns one response per period, each a transition from the previous one with the shocks of that period, and its flag is nonzero if and only if the transition of some period reported a flag.", "quantifier": "all models, shock lists, horizons, initial states and imposed spells", "why_tests_cant": "Flags appear only in rare states; every combination of period and state would have to be tried.", "anchors": ["pydsge/tools.py: irfs, t_func"]}
{"id": "C81", "title": "Observables of a solved model are the declared ones", "statement": "For every solved model and every state, obs returns the declared linear function (ZZ0, ZZ1) of the values of the declared variables, whatever order and split into states and controls the solver chose.", "quantifier": "all models, states and observables", "why_tests_cant": "The order of variables depends on the zero pattern of the model; a test covers a few patterns.", "anchors": ["pydsge/tools.py: o_func", "pydsge/gensys.py: gen_sys"]}
{"id": "C82", "title": "Simulated paths solve the model file as written", "statement": "For a model file whose equations are linear in variables and shocks (lags of any length, lagged shocks, leads up to two periods) and whose constraint is linear in current values: if the file is parsed and solved, the path that t_func generates under an assumed spell satisfies, in every period, every equation exactly as written in the file, the constraint as written in slack periods and x_bar in binding periods; with flag 0 the constrained variable is max(x_bar, right hand side as written); and obs returns the measurement equations as written.", "quantifier": "all model files of this form, parameters, orders of substitution, table sizes, spells, initial states, shocks and periods", "why_tests_cant": "It composes parsing, substitution, differentiation, reduction and the solution tables; a test checks one file and one path.", "anchors": ["pydsge/parser.py: DSGE.parse, DSGE.get_matrices", "pydsge/gensys.py: gen_sys_from_yaml, gen_sys", "pydsge/tools.py: t_func, o_func"]}
{"id": "C83", "title": "write_yaml writes the model text", "statement": "write_yaml(filename) writes the text of the model file to filename and returns; a file of that name is not lost.", "quantifier": "all models read from files, all histories of loading data, changing settings, saving and reloading, all file names and contents", "why_tests_cant": "There is no call that succeeds to write a test for; that it fails needs the attribute to be absent after every history.", "anchors": ["pydsge/clsmethods.py: write_yaml", "pydsge/parser.py: DSGE.read, DSGE.load"]}
{"id": "C84", "title": "A saved model can be loaded and keeps its settings", "statement": "For every model read from files and every history of loading data, settings and saves, loading the file that save_meta writes succeeds and gives a model with the same equations, name, data, description, tuning length and settings.", "quantifier": "all models, histories, stores, file names, both ways of loading (unpickling or parsing again), all contents of the cache of parsed models", "why_tests_cant": "Depends on the history of the model and of the process; a round-trip test covers one.", "anchors": ["pydsge/clsmethods.py: save_meta, get_tune, info", "pydsge/parser.py: DSGE.load, DSGE.read"]}
{"id": "C85", "title": "A model built from a dictionary is the solution of that dictionary", "statement": "Whatever dictionaries and models a process has created and changed before, gen_sys_from_dict returns the solution of the dictionary as it is at the time of the call, for the given l_max and k_max; the cache never returns a stale one.", "quantifier": "all processes (histories of calls), dictionaries, arguments", "why_tests_cant": "Staleness of caches depends on the history of calls.", "anchors": ["pydsge/gensys.py: gen_sys_from_dict"]}
{"id": "C86", "title": "Models built from dictionaries are independent", "statement": "Two calls of gen_sys_from_dict give two models: loading data into one changes neither the other nor the caller's dictionary.", "quantifier": "all processes, dictionaries, data", "why_tests_cant": "Aliasing shows only in particular orders of calls.", "anchors": ["pydsge/gensys.py: gen_sys_from_dict", "pydsge/parser.py: DSGE.read"]}
{"id": "C87", "title": "Entries of a model dictionary are validated like those of a model file", "statement": "A dictionary can leave out the measurement equations and the bound; a positive bound is rejected as it is in model files.", "quantifier": "all bounds and measurement matrices", "why_tests_cant": "A statement about all combinations of missing and present entries.", "anchors": ["pydsge/gensys.py: gen_sys_from_dict, gen_sys"]}
{"id": "C88", "title": "Solved models can be simulated, also without lagged variables", "statement": "If set_par succeeds, t_func, irfs and simulate can be called: the slice of the state vector that is passed to the transition is the block of states, also if that block is empty.", "quantifier": "all solved models, states, shocks, lengths", "why_tests_cant": "All test models have lagged variables; the failure needs a model whose block of states is empty.", "anchors": ["pydsge/tools.py: t_func, irfs, simulate", "pydsge/gensys.py: gen_sys"]}
{"id": "C89", "title": "get_par returns the documented parameter sets", "statement": "get_par('calib' | 'prior_mean' | 'init' | 'best' | 'mode' | ...) returns a full vector in which the estimated parameters have the documented values (in the declared order, whatever the order of the prior) and all others their calibrated values, independently of the current parameters; samples consist of such vectors, one per draw.", "quantifier": "all declarations, priors, stored modes and initial values, current parameters, sample sizes", "why_tests_cant": "A test checks one model and one order of the prior; independence of the current parameters quantifies over all previous edits.", "anchors": ["pydsge/mpile.py: get_par"]}
{"id": "C90", "title": "The solution always belongs to the current parameters", "statement": "Whatever sequence of set_par and get_par calls was made: compiled parameters, bound, order of variables, observation matrices, linear solution, tables and the covariance of the filter are all those of the parameters that get_par() returns.", "quantifier": "all models, solvers, sequences of calls, arguments", "why_tests_cant": "An invariant over all sequences of calls.", "anchors": ["pydsge/mpile.py: set_par, get_par", "pydsge/gensys.py: gen_sys_from_yaml, gen_sys"]}
{"id": "C91", "title": "obs with parameters computes and leaves the model alone", "statement": "obs(states, pars=pars) returns the observables of each path under its own parameters and leaves the model as it was.", "quantifier": "all models, paths and parameter vectors", "why_tests_cant": "The damage shows only in later calls (new observation matrices, old tables).", "anchors": ["pydsge/tools.py: o_func", "pydsge/mpile.py: set_par"]}
{"id": "C92", "title": "prep_estim works for every number of parameters", "statement": "For a model with priors and data that can be solved at the prior mean, prep_estim sets the estimated parameters to their prior means and all others to their calibration, solves the model there, and attaches a Kalman (linear) or ensemble filter with the covariance of these parameters.", "quantifier": "all models, numbers of parameters, priors and settings", "why_tests_cant": "It fails only for special sizes of a model; a test suite with a few models does not meet them.", "anchors": ["pydsge/estimation.py: prep_estim (97-104)", "pydsge/mpile.py: set_par"]}
{"id": "C93", "title": "create_filter makes the requested filter or raises", "statement": "For every filter type that the code names, create_filter makes a filter of this type with the dimensions of the model, the given measurement errors and the covariance of the current parameters; unknown types are rejected; a failed call leaves the previous filter in place.", "quantifier": "all models, filter types and arguments", "why_tests_cant": "Needs all types, with and without optional packages, and all spellings.", "anchors": ["pydsge/filtering.py: create_filter"]}
{"id": "C94", "title": "The covariance of measurement errors is a scaled diagonal of variances", "statement": "create_obs_cov returns a diagonal, positive semidefinite matrix with the variances of the series times scale_obs squared; it does not depend on the levels of the data, scales with the square of the data and of scale_obs, and a zero appears only for a constant series.", "quantifier": "all data sets without missing values, all scales", "why_tests_cant": "Algebraic identities and inequalities for all data.", "anchors": ["pydsge/filtering.py: create_obs_cov"]}
{"id": "C95", "title": "Linear shocks can be computed for states of the ensemble filter", "statement": "With an ensemble filter, get_eps_lin returns for two consecutive states, as this filter has them, the shocks that lead from one to the other in the linear model.", "quantifier": "all models and states", "why_tests_cant": "A statement on the shapes of all models; in tests the function is only used with the Kalman filter.", "anchors": ["pydsge/filtering.py: get_eps_lin"]}
{"id": "C96", "title": "The order of variables is respected when parameters change", "statement": "irfs labels each column with the variable whose values it has, and simulate raises if the order of variables under the parameters of a sample differs from that of the initial states.", "quantifier": "all models and parameter vectors", "why_tests_cant": "The order changes only when a coefficient becomes zero; then everything still runs and only the labels are wrong.", "anchors": ["pydsge/tools.py: simulate (436-441), irfs (338)", "pydsge/mpile.py: set_par (return_vv)", "pydsge/gensys.py: gen_sys (301-334)"]}
{"id": "C97", "title": "irfs uses the given parameters and settings", "statement": "irfs(shocks, pars=v, l_max=..., k_max=...) simulates the model solved for the parameters v (if given) under these bounds (if given), checks set_k against the bounds of that solution, and leaves the model itself alone.", "quantifier": "all models, parameter vectors (also zero), bounds and spells", "why_tests_cant": "The exceptions (all parameters zero, bounds without parameters, different old bounds) are silent.", "anchors": ["pydsge/tools.py: irfs (208-248, 304-309)"]}
{"id": "C98", "title": "Positions and labels of states line up", "statement": "At each position of a state vector returned by the transition function stands the variable that vv names there, and the vector handed to the tables has at each position the state or shock for which the tables were computed.", "quantifier": "all models and parameter values, including loadings of zero", "why_tests_cant": "Slices with -dimeps are right only if every shock enters the system; a parameter value of zero silently shifts all states.", "anchors": ["pydsge/gensys.py: gen_sys (301-334)", "pydsge/tools.py: t_func (75-91)"]}
{"id": "C99", "title": "Models without shocks can be solved", "statement": "gen_sys solves models that declare no shocks.", "quantifier": "all models without shocks", "why_tests_cant": "An empty slice [:-0] instead of a full one; a statement for all such models.", "anchors": ["pydsge/gensys.py: gen_sys (319, 332-334)"]}
{"id": "C100", "title": "debug concerns one call", "statement": "After irfs, simulate, extract, prior_sampler, prep_estim, create_pool or mcmc, with or without debug=True and whether the call succeeds or fails, self.debug is what it was before the call.", "quantifier": "all states of the model object, all calls and arguments", "why_tests_cant": "It must hold after every history of calls; a test exercises a few orders.", "anchors": ["pydsge/filtering.py: extract", "pydsge/tools.py: irfs, simulate", "pydsge/mpile.py: prior_sampler", "pydsge/estimation.py: prep_estim"]}
{"id": "C101", "title": "extract releases its workers", "statement": "After extract returns or raises, no worker process of the pool it (re)created waits for work.", "quantifier": "all states of the model object, all arguments, success and failure", "why_tests_cant": "It must hold after every history of calls; a test exercises a few orders.", "anchors": ["pydsge/filtering.py: extract", "pydsge/estimation.py: create_pool, mapper"]}
{"id": "C102", "title": "init_cov concerns one run", "statement": "run_filter(init_cov=P) starts from P, and a run without init_cov starts from the default covariance, whatever was run before.", "quantifier": "all filters, all sequences of runs and arguments", "why_tests_cant": "It must hold after every history of calls; a test exercises a few orders.", "anchors": ["pydsge/filtering.py: run_filter"]}
{"id": "C103", "title": "The computed expected path is the only solution that ends on the linear solution", "statement": "For a spell (l,k) inside the tables, a path of the declared variables solves the declared equations under the spell and joins the linear solution once the spell is over if and only if it is the expected path that the package computes.", "quantifier": "all declared models with rc = 0 (no lags in the constraint) for which gen_sys succeeds, all l <= l_max, k <= k_max, states, shocks and candidate paths", "why_tests_cant": "Uniqueness speaks about all candidate paths; a test can only exhibit one path that works.", "anchors": ["pydsge/engine.py: preprocess_jit, t_func_jit", "pydsge/gensys.py: gen_sys"]}
{"id": "C104", "title": "Results do not depend on how the equations are written", "statement": "If two declarations have the same solutions period by period (equations reordered, multiplied by nonzero numbers, recombined; other measurement equations) and the linear solver returns the same linear solution for both, then expected paths, the equilibria (l,k) found, the flags and simulations agree in all declared variables.", "quantifier": "all pairs of equivalent declarations for which gen_sys succeeds (no variable whose lag is in the constraint is expected in an equation, and the constrained variable does not have the coefficient one on its own right hand side), all states, shocks, lengths of simulations", "why_tests_cant": "Spells, states, shocks and models are unbounded; a test compares a few runs.", "anchors": ["pydsge/gensys.py: gen_sys", "pydsge/engine.py: preprocess_jit, find_lk, t_func_jit", "pydsge/tools.py: simulate"]}
{"id": "C105", "title": "Larger tables keep an equilibrium that was found", "statement": "If t_func finds an equilibrium (l,k) with k > 0 and flag 0, then with a larger l_max (and also a larger k_max if l = 0) it finds the same equilibrium and the same values of all declared variables. Where equilibria are unique and what is reported without an error is an equilibrium, tables of any two sizes that report no error give the same new state, larger tables report no error wherever smaller ones do not, and a simulation without an error is the same with all larger tables.", "quantifier": "all declared models (no variable whose lag is in the constraint is expected in an equation, and the constrained variable does not have the coefficient one on its own right hand side), all l_max <= l_max' < 999, k_max <= k_max', states and shocks", "why_tests_cant": "Spells, states, shocks and models are unbounded; a test compares a few runs.", "anchors": ["pydsge/engine.py: find_lk, preprocess_jit", "pydsge/tools.py: t_func"]}
{"id": "C106", "title": "Units do not matter", "statement": "If the bound, the state and all shocks are multiplied by the same positive number, then expected paths and simulated values are multiplied by it, and the equilibria (l,k) and flags stay the same.", "quantifier": "all declared models (no variable whose lag is in the constraint is expected in an equation, and the constrained variable does not have the coefficient one on its own right hand side), all positive factors, spells, states, shocks, lengths of simulations", "why_tests_cant": "Spells, states, shocks and models are unbounded; a test compares a few runs.", "anchors": ["pydsge/engine.py: preprocess_jit, find_lk, t_func_jit", "pydsge/tools.py: simulate"]}
{"id": "C107", "title": "A longer horizon does not change earlier periods", "statement": "irfs with horizon T+n returns in its first T periods exactly what irfs with horizon T returns (and fails if that fails). Without a forced equilibrium, the remaining n periods are what irfs returns from the state reached, with the shocks moved forward by T.", "quantifier": "all models, shock lists, set_k, force_init_equil, linear, initial states, T, n", "why_tests_cant": "Horizons, shock lists, states and models are unbounded; a test compares a few runs.", "anchors": ["pydsge/tools.py: irfs"]}
{"id": "C108", "title": "Shocks of later periods do not influence the present", "statement": "If two shock lists agree in all periods before T, then irfs returns the same first T periods for both (shocks are unanticipated).", "quantifier": "all models, pairs of shock lists, states, T and options", "why_tests_cant": "Horizons, shock lists, states and models are unbounded; a test compares a few runs.", "anchors": ["pydsge/tools.py: irfs"]}
{"id": "C109", "title": "Impulse responses are simulations", "statement": "Without an imposed spell and with force_init_equil=False (or if all shocks are in period 0), irfs returns the same states, equilibria and flag as simulate for the residuals that the shock list stands for, starting from the same state.", "quantifier": "all models, shock lists, states, horizons, linear or not", "why_tests_cant": "Horizons, shock lists, states and models are unbounded; a test compares a few runs.", "anchors": ["pydsge/tools.py: irfs, simulate"]}
{"id": "C110", "title": "A mask replaces the shocks by its values", "statement": "simulate(mask=m): where the mask is NaN the original shock is used, everywhere else the value of the mask is used (docstring: 'each non-None element will be replaced').", "quantifier": "all masks and residuals", "why_tests_cant": "Masks, shock lists and orders of assignment are unbounded; tests try the few that come with the examples, where numbers of shocks and observables agree.", "anchors": ["pydsge/tools.py: simulate"]}
{"id": "C111", "title": "Assigning a column of the mask concerns that shock", "statement": "If a mask is made from mod.mask by assignments mask[shock] = values, then simulate alters exactly the named shocks, by exactly these values.", "quantifier": "all lists of observables and shocks, data lengths, sequences of assignments, operations and residuals", "why_tests_cant": "Masks, shock lists and orders of assignment are unbounded; tests try the few that come with the examples, where numbers of shocks and observables agree.", "anchors": ["pydsge/tools.py: mask, simulate"]}
{"id": "C112", "title": "shock2state is the state after the shock", "statement": "shock2state((name, size)) is the vector of states and shocks that the transition function builds from the zero state and the shock vector that is size at name and zero elsewhere; unknown names raise ValueError.", "quantifier": "all models with at least one state, all shocks and sizes", "why_tests_cant": "Positions of slices with negative bounds depend on the numbers of states and shocks; tests fix them.", "anchors": ["pydsge/tools.py: shock2state, t_func"]}
{"id": "C113", "title": "Densities belong to the draws they are used with", "statement": "mdd and mcmc_summary combine each draw they use with the log density of that draw (same step, same walker).", "quantifier": "all stored chains, transformations, values of tune, chains and densities that are given or not", "why_tests_cant": "The two arrays are read, cut and flattened separately; a wrong pairing gives plausible numbers.", "anchors": ["pydsge/clsmethods.py: get_chain, get_log_prob, get_tune, mcmc_summary", "pydsge/stats.py: mdd"]}
{"id": "C114", "title": "get_chain returns parameter vectors", "statement": "get_chain returns the parameter vectors at which the posterior was evaluated during sampling, whatever was called since.", "quantifier": "all transformations, all sequences of prep_estim, mcmc and get_chain", "why_tests_cant": "Depends on the order of calls; needs a sampler run and a change of settings afterwards.", "anchors": ["pydsge/clsmethods.py: get_chain", "pydsge/estimation.py: prep_estim, lprob", "pydsge/mcmc.py: mcmc"]}
{"id": "C115", "title": "posterior2csv writes one row per estimated parameter", "statement": "The file has exactly one row per estimated parameter, in their order, with the values of that parameter in all kept draws, step by step and walker by walker; it raises if the number of names differs from that of parameters.", "quantifier": "all chains, numbers of walkers and parameters, values of tune", "why_tests_cant": "Needs an estimated model; reshape and transpose errors keep the shape when numbers coincide.", "anchors": ["pydsge/clsmethods.py: posterior2csv, get_chain"]}
{"id": "C116", "title": "Without new shocks, expectations come true", "statement": "If irfs finds an equilibrium spell (l,k) with flag 0 at impact and no further shock hits, then in every later period it shows the path that was expected at impact, with the spell elapsing and flag 0.", "quantifier": "all models, states, shocks, horizons and table sizes", "why_tests_cant": "Compares the outcome of a new search in every period with a path computed once; a counterexample needs a particular dynamic structure.", "anchors": ["pydsge/tools.py: irfs, t_func", "pydsge/engine.py: find_lk, check_cnst"]}
{"id": "C117", "title": "A complete parameter vector decides the model, whatever was set before", "statement": "set_par with a vector of all parameters has the same outcome (result or exception) and, if it succeeds, leaves the same parameters, solution, tables and shock covariance, whatever sequence of set_par and get_par calls came before, including calls that failed half-way, provided none of them asked for tables of another size. The same holds for vectors of the estimated parameters if before only such vectors were set.", "quantifier": "all models, all solvers (as functions of the parameters), all sequences of earlier calls with any arguments, all vectors", "why_tests_cant": "The state left by a failed call depends on where the failure happened; no finite set of histories covers all sequences of calls and crash points.", "anchors": ["pydsge/mpile.py:92-269", "pydsge/gensys.py:103-175", "pydsge/gensys.py:178-394"]}
{"id": "C118", "title": "Assignments of single parameters commute and overwrite", "statement": "Setting two different parameters by name one after the other has the same outcome and leaves the same model in either order, also if the first of the two calls fails; setting the same parameter twice is the same as setting it once to the second value.", "quantifier": "all models, all pairs of names, all values, all states of the model", "why_tests_cant": "Intermediate parameter values may have no solution, so that one of the orders passes through a failed call; all values and crash points are quantified over.", "anchors": ["pydsge/mpile.py:92-269"]}
{"id": "C119", "title": "extract pairs every parameter vector with every seed, independently of the workers", "statement": "For several parameter vectors and seeds extract returns the results vector by vector and seed by seed, each together with its own vector, and each equal to what the model gives for exactly this vector and seed, however the tasks are distributed over worker processes and in whatever order they are done; failed draws that are accepted are left out; the first exception in this order is raised; without any result it raises.", "quantifier": "all models, all samples of complete vectors or of vectors of estimated parameters, all seeds, all assignments of tasks to workers, all orders, all filters as functions of model and seed", "why_tests_cant": "Workers keep the state of the previous task, so results could depend on the schedule; schedules are not controllable in tests.", "anchors": ["pydsge/filtering.py:310-497", "pydsge/estimation.py:281-287"]}
{"id": "C120", "title": "extract leaves the parameters of the model as they were", "statement": "After extract the model has the parameters it had before, whatever parameter vectors were passed as sample.", "quantifier": "all models, all samples, all filters, with and without a pool of processes", "why_tests_cant": "Depends on whether a pool exists, which filter is used and on debug mode; holds in some of the combinations only.", "anchors": ["pydsge/filtering.py:370-410", "pydsge/filtering.py:412-430", "pydsge/estimation.py:281-287"]}
{"id": "C121", "title": "Names in a model file mean what is declared", "statement": "In a file that DSGE.parse accepts, the name of a variable is not also the name of a parameter, a shock or a function of parameters; model equations, constraint and measurement equations have the value of the text with every name as declared (name(i) is the value i periods ahead), and the generated paths satisfy the equations of the text.", "quantifier": "all model files (declarations and expressions), all orders in which sympy substitutes, all interpretations, paths and periods", "why_tests_cant": "The domain is infinite (all model files, interpretations and paths); a test samples a handful of them.", "anchors": ["pydsge/parser.py: DSGE.parse (l.678-780, 918-921)", "pydsge/symbols.py: TSymbol.__call__"]}
{"id": "C122", "title": "Malformed model files raise SyntaxError", "statement": "A file with an undeclared name, a constraint of the wrong form, a wrong number of equations, an unused shock or a space in the name of a variable raises SyntaxError (which says which equation is at fault) and no other exception.", "quantifier": "all model files", "why_tests_cant": "The domain is infinite (all model files, interpretations and paths); a test samples a handful of them.", "anchors": ["pydsge/parser.py: DSGE.parse (l.668-676, 700-731, 755-780, 801-838)"]}
{"id": "C123", "title": "A file that uses all it declares is accepted", "statement": "If every declared variable and shock is used, names are declared once and the numbers fit, the model equations are accepted.", "quantifier": "all model files", "why_tests_cant": "The domain is infinite (all model files, interpretations and paths); a test samples a handful of them.", "anchors": ["pydsge/parser.py: DSGE.parse (l.796-838)"]}
{"id": "C124", "title": "prep_estim works completely or not at all", "statement": "If prep_estim raises, the model is as before the call; if it returns, filter, density, prior, seed and bounds are those that the arguments, else the stored settings, ask for.", "quantifier": "all models, states, arguments, and places where an exception is raised", "why_tests_cant": "The domain is infinite (all models, states of the object, arguments and sequences of calls, wherever an exception is raised); a test samples a handful of them.", "anchors": ["pydsge/estimation.py: prep_estim (l.56-236)", "pydsge/estimation.py: create_pool", "pydsge/filtering.py: create_filter"]}
{"id": "C125", "title": "The density of a draw is that of the model set to this draw", "statement": "lprob(par) is the (tempered) likelihood that the filter returns for the model after set_par(par), plus the prior; minus infinity if set_par raises.", "quantifier": "all models, states, draws, temperatures", "why_tests_cant": "The domain is infinite (all models, states of the object, arguments and sequences of calls, wherever an exception is raised); a test samples a handful of them.", "anchors": ["pydsge/estimation.py: prep_estim llike, lprob (l.150-223)", "pydsge/mpile.py: set_par"]}
{"id": "C126", "title": "Other methods do not change the density", "statement": "After prep_estim, any sequence of calls of other methods (lprob, set_par, save_meta, extract) leaves the density of every draw unchanged.", "quantifier": "all models, sequences of calls, draws", "why_tests_cant": "The domain is infinite (all models, states of the object, arguments and sequences of calls, wherever an exception is raised); a test samples a handful of them.", "anchors": ["pydsge/estimation.py: prep_estim llike, lprob (l.150-223)", "pydsge/filtering.py: extract (l.380-388, 419)", "pydsge/filtering.py: run_filter (l.166-167)"]}
{"id": "C127", "title": "A linear preparation does not switch off the constraint", "statement": "After prep_estim(linear=True), set_par without bounds gives the solution with the constraint, as it does in a model that was not prepared.", "quantifier": "all models and sequences of calls", "why_tests_cant": "The domain is infinite (all models, states of the object, arguments and sequences of calls, wherever an exception is raised); a test samples a handful of them.", "anchors": ["pydsge/estimation.py: prep_estim (l.67-73, 97)", "pydsge/gensys.py: gen_sys_from_yaml (l_max, k_max)"]}
{"id": "C128", "title": "mcmc and prior_sampler prepare the model if needed", "statement": "mcmc() and prior_sampler(check_likelihood=True) in a model that was not prepared do the preparation themselves.", "quantifier": "all models and states, repeated calls", "why_tests_cant": "The domain is infinite (all models, states of the object, arguments and sequences of calls, wherever an exception is raised); a test samples a handful of them.", "anchors": ["pydsge/mcmc.py: mcmc (l.61-64, 88)", "pydsge/mpile.py: prior_sampler (l.65-66)", "pydsge/estimation.py: prep_estim (l.106-111)"]}
{"id": "C129", "title": "dispatch=True works", "statement": "prep_estim(dispatch=True) prepares the model and the density has the values it has without dispatch.", "quantifier": "all models, states, arguments, draws", "why_tests_cant": "The domain is infinite (all models, states of the object, arguments and sequences of calls, wherever an exception is raised); a test samples a handful of them.", "anchors": ["pydsge/filtering.py: run_filter (l.205-212)", "pydsge/estimation.py: prep_estim (l.113-119, 168)"]}
{"id": "C130", "title": "Measurement errors survive save_meta", "statement": "The measurement errors of the filter at the time of save_meta are those of every filter that prep_estim makes afterwards, whatever calls are in between; with them stored, load_R=True and load_R=False do the same.", "quantifier": "all models, states, sequences of calls, arguments", "why_tests_cant": "The domain is infinite (all models, states of the object, arguments and sequences of calls, wherever an exception is raised); a test samples a handful of them.", "anchors": ["pydsge/clsmethods.py: save_meta (l.135-140)", "pydsge/estimation.py: prep_estim (l.106-111)"]}
{"id": "C131", "title": "Small disturbances never make the constraint bind", "statement": "If the bound lies below the steady state there is a positive size such that for all states and shocks below it the transition with the constraint is the linear one; if moreover the linear model returns to its steady state, this holds in all periods of simulations of any length with such shocks, and paths after such disturbances converge to the steady state.", "quantifier": "all models that can be solved, all states and shocks below a size that depends on the model only, all lengths", "why_tests_cant": "The domain is infinite (all models, states, shocks and lengths, and a limit); a test samples a handful of them.", "anchors": ["pydsge/engine.py: t_func_jit, find_lk", "pydsge/tools.py: t_func, simulate"]}
{"id": "C132", "title": "Responses return to the steady state if the linear model does", "statement": "If the model without the constraint returns to its steady state, then so does every expected path, and so does every impulse response with the constraint.", "quantifier": "all models, spells, states, shocks, lengths", "why_tests_cant": "The domain is infinite (all models, states, shocks and lengths, and a limit); a test samples a handful of them.", "anchors": ["pydsge/tools.py: t_func, irfs", "pydsge/engine.py: find_lk (fallback)"]}
{"id": "C133", "title": "Powers and semicolons in model files", "statement": "In a model file `^` and `**` mean the same everywhere, semicolons have no influence anywhere, YAML never sees a `^` or `;`, and a file without `^`, `;`, `@`, `~` reaches YAML unchanged.", "quantifier": "all texts and positions", "why_tests_cant": "The domain is infinite (all texts); tests parse a handful of model files.", "anchors": ["pydsge/parser.py: DSGE.parse (l.653-660)"]}
{"id": "C134", "title": "Continued lines", "statement": "A line of a model file that ends in `@`, with any number of blanks after it, is continued by the next line, as if both were written on one line with a blank between them.", "quantifier": "all texts before and after, all numbers of blanks", "why_tests_cant": "The domain is infinite (all texts); tests parse a handful of model files.", "anchors": ["pydsge/parser.py: DSGE.parse (l.655)"]}
{"id": "C135", "title": "List markers `~` and `-`", "statement": "An entry of a list that stands on its own line can be marked by `~` instead of `-`.", "quantifier": "all texts before and after, all indentations", "why_tests_cant": "The domain is infinite (all texts); tests parse a handful of model files.", "anchors": ["pydsge/parser.py: DSGE.parse (l.656-659)"]}
{"id": "C136", "title": "Comments in model files", "statement": "The text of a comment has no influence on the model, and comments can be left out.", "quantifier": "all texts, comments and positions", "why_tests_cant": "The domain is infinite (all texts); tests parse a handful of model files.", "anchors": ["pydsge/parser.py: DSGE.parse (l.653-660)"]}
{"id": "C137", "title": "The measure of a main shock lies between 0 and 1", "statement": "The computation of `mbcs_index` gives a number between 0 and 1 for every array of shares; it is 0 exactly if every row is explained by one shock of its own and 1 exactly if a single shock explains all rows.", "quantifier": "all arrays of non-negative shares with rows adding up to one, all numbers of rows and shocks", "why_tests_cant": "The bound is a statement about all arrays and about a greedy elimination of any length.", "anchors": ["pydsge/stats.py: mbcs_index (l.132-147)"]}
{"id": "C138", "title": "Calibration and priors are read as written", "statement": "Reading a model file accepts exactly those whose priors are for calibrated parameters; every parameter has the value of the last line that mentions it, every prior belongs to the parameter of its name, and files whose prior section is missing or empty have no priors.", "quantifier": "all sections, with any repetitions of names", "why_tests_cant": "Infinitely many sections; tests read a few well-formed files.", "anchors": ["pydsge/parser.py: DSGE.parse (l.679-685, 959-969)", "pydsge/parser.py: DSGE.p0"]}
{"id": "C139", "title": "The durations that irfs and simulate return", "statement": "`X, (L, K), flag = irfs(...)` gives the expected durations l and k of the runs, also for several sets of parameters; `simulate` returns l and k of every sample.", "quantifier": "all numbers of parameter sets and periods", "why_tests_cant": "The number of parameter sets is unbounded; the existing tests discard the durations.", "anchors": ["pydsge/tools.py: irfs (l.331-354)", "pydsge/tools.py: simulate (l.458-485)"]}
{"id": "C140", "title": "Satellite equations do not influence the core of a model", "statement": "If a model file is extended by variables, shocks and equations that the equations and the constraint of the original model do not mention (definitions, growth rates, blocks that only react), then the original variables have the same equilibria (l,k), flags and paths in both, in every transition and in every simulation; renaming or reordering variables and shocks is a special case.", "quantifier": "all models, all extensions, all states, all sequences of shocks, all sizes of the tables", "why_tests_cant": "Infinitely many extensions; the extended model is solved with other states, other matrices and other rotations.", "anchors": ["pydsge/gensys.py: gen_sys_from_dict, gen_sys_from_yaml, gen_sys", "pydsge/engine.py: preprocess_jit, find_lk, t_func_jit", "pydsge/tools.py: t_func, simulate"]}
{"id": "C141", "title": "Variance decompositions of an extracted sample", "statement": "gfevd accepts what extract returns; it pairs every residual with the state in which its period starts and with the parameters of its sample; if the whole sample is used the seed does not matter; with linear=True the share of a shock is the sum of its squared residuals times its squared unit response relative to the sum over all shocks, whatever the states are; the model is left as it was.", "quantifier": "all models, samples, parameters, numbers of draws, seeds and horizons", "why_tests_cant": "Infinitely many samples; the random order hides which rows belong together.", "anchors": ["pydsge/stats.py: gfevd", "pydsge/filtering.py: extract", "pydsge/tools.py: irfs"]}
{"id": "C142", "title": "The transition is affine where the constraint behaves alike", "statement": "The states and shocks after which the constraint does not bind form a convex set that contains all fractions of its elements, and transitions and simulations are affine on it; wherever two points and a point on the line through them have the same (l,k), the transition is affine along that line; a mixture of two points with the same equilibrium has an equilibrium again.", "quantifier": "all models, states, shocks, weights, lengths", "why_tests_cant": "Convexity and piecewise affinity relate infinitely many points of a high-dimensional space.", "anchors": ["pydsge/engine.py: find_lk, check_cnst, t_func_jit", "pydsge/tools.py: t_func, simulate"]}
{"id": "C143", "title": "Every declared coefficient counts, however small", "statement": "A variable whose lag appears in an equation influences the transition: the expected path solves the declared equations also if coefficients are small, as they are after a change of units.", "quantifier": "all models, all non-zero coefficients, all states", "why_tests_cant": "Tests use coefficients of ordinary size; the tolerance only acts below 1e-8.", "anchors": ["pydsge/gensys.py: gen_sys (fast0)", "pydsge/tools.py: t_func"]}
{"id": "C144", "title": "simulate pairs parameters, residuals and initial states sample by sample", "statement": "simulate(source) for several samples returns, in the order of the samples, for each sample the simulation of its own residuals from its own initial state under its own parameters; the result of a sample does not depend on the other samples, on their order or on the workers; the first sample that fails determines the exception; afterwards the model is as before, except for the debug flag.", "quantifier": "all model objects, all samples, all orders in which workers process them, with or without mask", "why_tests_cant": "Pairing and isolation must hold for every number and order of samples and every schedule of the workers.", "anchors": ["pydsge/tools.py: simulate (386-485)"]}
{"id": "C145", "title": "simulate loses no sample", "statement": "simulate returns one result per sample of residuals, or raises.", "quantifier": "all combinations of pars, resid and init", "why_tests_cant": "The lists agree in length whenever they come from one call of extract; tests use such results.", "anchors": ["pydsge/tools.py: simulate (466-468)"]}
{"id": "C146", "title": "A lower bound binds less", "statement": "If the constraint does not bind in a transition or simulation, then it does not bind in the same model with a lower bound, and all values are the same; if it binds with the lower bound it binds with the higher one; with a bound that is low enough any given simulation is the linear one. When it binds, and announced increases of the constrained variable lower a variable and do not raise the constrained variable in other periods, then this variable is in every period of a simulation at least as high with the lower bound.", "quantifier": "all models (no variable whose lag is in the constraint is expected in an equation, and the constrained variable does not have the coefficient one on its own right hand side), all states, shocks and sequences of shocks, all bounds", "why_tests_cant": "The bound is a parameter in all tables of the solution; tests compare a few values of it.", "anchors": ["pydsge/gensys.py: gen_sys", "pydsge/engine.py: find_lk", "pydsge/tools.py: t_func, simulate"]}
{"id": "C147", "title": "The order and the names of variables do not matter", "statement": "If variables, shocks or equations are declared in another order or under other names, the transition finds the same equilibrium, reports the same flag and assigns every variable the same value; so do simulations.", "quantifier": "all models (no variable whose lag is in the constraint is expected in an equation, and the constrained variable does not have the coefficient one on its own right hand side), all permutations and renamings, all states and shocks", "why_tests_cant": "Each declaration order is a different set of matrices; tests use the order of the file.", "anchors": ["pydsge/gensys.py: gen_sys", "pydsge/tools.py: t_func, simulate"]}
{"id": "C148", "title": "Which model is solved if the constraint contains lags, or shocks and the constrained variable itself", "statement": "If no variable whose lag is in the constraint is expected in an equation, the expected paths are exactly the paths that solve the declared equations together with the constraint in which the lags have the opposite sign and the shocks are multiplied by one minus the coefficient of the constrained variable on its own right hand side, and that end on the linear solution; with flag 0 the constrained variable is the maximum of x_bar and the value of that rule. Such a path satisfies the declared constraint, too, if and only if the two differences cancel in every slack period. A file that is written with lags of the opposite sign and divided shocks is solved as meant.", "quantifier": "all declared models with a coefficient of the constrained variable on its own right hand side other than one, all spells inside the tables, states, shocks and candidate paths", "why_tests_cant": "A test sees one model; the claim says what comes out for every constraint, including those that are not solved as declared.", "anchors": ["pydsge/parser.py: DSGE.get_matrices", "pydsge/gensys.py: gen_sys_from_yaml, gen_sys", "pydsge/engine.py: preprocess_jit, find_lk, t_func_jit"]}
{"id": "C149", "title": "Regions of the transition function fit together: when two spells give the same path", "statement": "A path that is expected under one spell is expected under another spell if and only if in every period in which exactly one of the two binds, the constrained variable is at x_bar and the rule gives x_bar as well. In particular a spell can be counted one period longer exactly if the unconstrained variable is at its bound in that period, and it can begin one period later exactly if the rule gives the bound there; the imposed transitions of t_func then agree.", "quantifier": "all models (lags in the constraint as in C148), all pairs of spells inside the tables, all states and shocks, all paths", "why_tests_cant": "A test compares transitions at sampled states, which are never exactly on the border between two regions; the claim is an equivalence for all borders.", "anchors": ["pydsge/engine.py: preprocess_jit, t_func_jit, find_lk", "pydsge/tools.py: t_func"]}
{"id": "C150", "title": "Saving and loading a model again and again changes nothing", "statement": "However often a model with data is saved and loaded, its equations, name, data and settings stay what they were after the first time, and what is stored does not grow.", "quantifier": "all models, histories, numbers of cycles, file names, processes (caches), with and without unpickling", "why_tests_cant": "The claim is about every number of cycles; a test does one or two.", "anchors": ["pydsge/clsmethods.py: save_meta", "pydsge/parser.py: DSGE.load"]}
{"id": "C151", "title": "get_par(nsamples=n) returns n different parameter vectors", "statement": "For every named set of parameters and for the current parameters, and every n > 1, `get_par(..., nsamples=n)` returns n vectors that are spread around the set in every direction, as it is needed to start an ensemble sampler.", "quantifier": "all models, sets, candidates, random numbers, n > 1, full or estimated parameters only", "why_tests_cant": "The spread is multiplicative, so whether a direction is missing depends on the values of the candidate; tests use one set with nonzero values.", "anchors": ["pydsge/mpile.py: get_par"]}
{"id": "C152", "title": "get_par(asdict=True) gives each parameter its value", "statement": "For every set, vector or sample that `get_par` accepts, `asdict=True` returns dictionaries in which each parameter and each function of parameters has the (rounded) value that it has without `asdict`.", "quantifier": "all models, sets, samples, numbers of samples, full or estimated parameters only, any rounding", "why_tests_cant": "Tests use a set with one vector; what happens to samples depends on the relation of the number of samples and the number of parameters.", "anchors": ["pydsge/mpile.py: get_par"]}
{"id": "C153", "title": "The transition function is continuous", "statement": "For every solved model, small changes of states and shocks change the state that `t_func` returns by little, as long as the search succeeds; the same holds for simulations.", "quantifier": "all models, table sizes, states, shocks and simulations of any length for which the search succeeds", "why_tests_cant": "The transition function is assembled from as many linear pieces as there are spells; whether they fit at every border between their regions is a statement about all states.", "anchors": ["pydsge/engine.py: find_lk, t_func_jit", "pydsge/tools.py: t_func, simulate"]}
{"id": "C154", "title": "Arrays of the user and arrays of the model are separate", "statement": "Arrays that `get_par` and `set_par` return, and arrays that are passed to them, belong to the caller: writing into them never changes what the model does, and the model never changes their entries.", "quantifier": "all models, all sequences of calls of get_par, set_par, prep_estim and mcmc (also failed ones), all arrays passed, all writes", "why_tests_cant": "Whether some sequence of calls hands out a reference to an array of the model is a statement about all sequences; a test that compares the values returned cannot see whether two arrays are the same.", "anchors": ["pydsge/mpile.py: get_par, set_par", "pydsge/estimation.py: prep_estim", "pydsge/mcmc.py: mcmc"]}
{"id": "C155", "title": "What a model says about its size and its expected variables", "statement": "For every model file that is accepted: `fvars` are the leads v(+1) of model variables that occur in the equations, each once, and `neta` is their number; `lvars` are the lags; `neq` is one less than the number of variables, `nstate` is the number of variables plus `neta`, and `neq_fort` is `neq` plus the number of measurement equations; expectations of other variables have zero coefficients in every equation; there is one expectation error per expected variable, and its equation says that the error is the variable minus what was expected of it.", "quantifier": "all accepted model files, all orders in which Python lists a set", "why_tests_cant": "`fvars` is collected through sets whose order changes from run to run, after substitutions that add variables; tests see single files and single orders.", "anchors": ["pydsge/parser.py: DSGE.__init__, neq, neq_fort, neta, nobs"]}
{"id": "C156", "title": "Printing a model shows all of it", "statement": "`_dumper` (and `dump`) fails exactly if a dictionary somewhere in the object has a key that is neither text nor None, with a TypeError; otherwise every part of the object is printed on a line with its name, indented by its depth, entries in their order between brackets; and different objects are printed differently.", "quantifier": "all nested objects of any depth, names, indentations", "why_tests_cant": "Objects are nested to any depth; tests print a few.", "anchors": ["pydsge/utils.py: _dumper", "pydsge/parser.py: dump"]}
{"id": "C157", "title": "The date of a shock only shifts the response", "statement": "From the steady state and with nothing imposed: if all shocks occur D periods later, `irfs` returns D periods at the steady state (no spell, no flag) followed by the original response, period by period: states, durations, flags and exceptions.", "quantifier": "all models, shock lists, delays, horizons, values of force_init_equil and linear", "why_tests_cant": "Needs the same response for all dates and shock lists; tests put shocks into one period.", "anchors": ["pydsge/tools.py: irfs (l.256-329, l.270)"]}
{"id": "C158", "title": "gfevd is the decomposition of Lanne and Nyberg", "statement": "gfevd returns, for every shock and variable, the generalised forecast error variance decomposition of Lanne and Nyberg that its documentation names: the squared generalised responses summed over all periods up to the horizon, relative to the sum over all shocks, averaged over the histories of the sample.", "quantifier": "all models, samples, horizons, shocks and variables", "why_tests_cant": "Shares always look plausible (they sum to one); only a comparison with the definition for all samples and horizons shows whether they are the documented ones.", "anchors": ["pydsge/stats.py: gfevd (l.61, 98-114)"]}
{"id": "C159", "title": "The linear historic decomposition consists of counterfactuals", "statement": "With linear=True, and in every sample whose expected paths never bind, the contribution that nhd assigns to a shock is the linear simulation with this shock alone, started from the initial state divided by the number of shocks; nhd returns the averages of these over the samples, and does not fail.", "quantifier": "all models, samples (also with different parameters), numbers of periods", "why_tests_cant": "The contributions are built up recursively next to the simulation; a test sees one sample, and adding up (C57) does not determine the single contributions.", "anchors": ["pydsge/stats.py: nhd (l.163-210)"]}
{"id": "C160", "title": "Linear extraction is least squares and undoes a linear simulation", "statement": "With the Kalman filter, the shock that extract reports for a period is the one with which the linear step from the state reached so far comes closest (in squares) to the smoothed state of the next period, and the smallest of these; given the states of a linear simulation it returns its initial state, path and shocks, for every simulation iff no two shocks have the same effect in the linear model.", "quantifier": "all solved models, smoothed states, simulations, initial states, shocks, pseudoinverses with the four defining conditions", "why_tests_cant": "A test sees one model; whether the shocks are recovered depends on the rank of the impact matrix, and the least squares property on all alternative shocks.", "anchors": ["pydsge/filtering.py: get_eps_lin (l.41-57)", "pydsge/filtering.py: extract (l.421-430)", "pydsge/tools.py: simulate (l.386-485)"]}
{"id": "C161", "title": "The equilibrium that t_func reports is the only one", "statement": "If t_func reports a spell with flag 0 and the path under this spell is an equilibrium (all equations hold in all periods and the constrained variable is always the larger one of its notional value and the bound), then there is no other equilibrium that ends on the linear solution: not with other spells, nor with several spells.", "quantifier": "all solved models, states, shocks, all other paths with any number of spells of any length", "why_tests_cant": "A second equilibrium is a different infinite path; the search stops at the first spell that passes and never looks for another one.", "anchors": ["pydsge/engine.py: t_func_jit, find_lk, bruite_wrapper (l.226-327)", "pydsge/tools.py: t_func"]}
{"id": "C162", "title": "The report of the best guess shows every parameter once and fits the terminal", "statement": "pmdm_report prints every prior parameter once, in order, above its own value, and no row is wider than the terminal; it fails only without a terminal, without prep_estim, or if the terminal has at most eight columns.", "quantifier": "all numbers of parameters, names, values and terminal widths", "why_tests_cant": "Reads the size of the real terminal; the split into sections depends on both the number of parameters and the width.", "anchors": ["pydsge/stats.py: pmdm_report (l.19-56)"]}
{"id": "C163", "title": "An error flag means that there is no equilibrium with one spell inside the tables", "statement": "Whenever the declared model has a perfect foresight equilibrium that ends on the linear solution and in which the constraint binds in at most one spell with l ≤ l_max and k ≤ k_max, t_func reports flag 0. So flags 1 and 2 are raised only if there is no such equilibrium. Where what is reported without an error is an equilibrium (C193), an error is reported exactly if there is no equilibrium with one spell inside the tables. If moreover the rule does not fall below the bound again once it is above, around every state and shock with an error there are only states and shocks with an error.", "quantifier": "all models without lags and without the constrained variable itself in the constraint, 1 ≤ l_max ≤ 998, 1 ≤ k_max, all states and shocks, all equilibria (also those that just touch the bound)", "why_tests_cant": "Quantifies over all equilibria of all models; a test can only look at one path and cannot show that none exists.", "anchors": ["pydsge/engine.py: find_lk (l.268-309), bruite_wrapper (l.312-331)", "pydsge/tools.py: t_func (l.17-84)"]}
{"id": "C164", "title": "gen_sys never drops a declared variable silently", "statement": "gen_sys comes to the solution of the system if and only if every declared variable occurs (with a coefficient that is not tiny) in some equation at any date or with a lag in the constraint, and then vv has every declared variable; otherwise it raises ValueError. In particular a variable that occurs only unlagged in the constraint - say, a constrained variable without any effect - makes the model unsolvable.", "quantifier": "all models with one equation fewer than variables and at least one shock, all coefficients, all orders of the variables", "why_tests_cant": "The dimension count is over all patterns of zero coefficients; the error comes from a matrix product far from its cause.", "anchors": ["pydsge/gensys.py: gen_sys (l.301-311, 337-361)"]}
{"id": "C165", "title": "The messages of gen_sys are right and do not change the outcome", "statement": "With verbose=2 gen_sys prints the names of the variables with a lead, with a lag, with both and of those without a place in the system, and then gives the same outcome as without messages.", "quantifier": "all models, orders of variables, names, coefficients", "why_tests_cant": "The masks have positions for auxiliary variables and shocks that have no name; whether one of these can be set depends on all coefficients.", "anchors": ["pydsge/gensys.py: gen_sys (l.254-267, 308-310), gen_sys_from_dict (l.44-48)"]}
{"id": "C166", "title": "info tells about any model and changes nothing", "statement": "model.info() returns title, date of the last sampling, description and, for an estimated model, the numbers of parameters, walkers, kept and stored steps; it works for every model and leaves the model as it is.", "quantifier": "all models: just read, loaded, estimated; all chains, names, descriptions", "why_tests_cant": "Depends on which attributes and files exist after arbitrary histories.", "anchors": ["pydsge/clsmethods.py: info_m (l.250-283), get_chain (l.54-99), get_tune (l.45-51)"]}
{"id": "C167", "title": "Verbosity does not change the density", "statement": "Whatever the level of verbosity, llike and lprob return the same value and leave the same model, random generator and closure, also at parameters where the likelihood cannot be computed; there the report names exactly the (rounded) estimated parameters that are outside their bounds.", "quantifier": "all models with a prior, all parameters, temperatures, levels, sequences of calls", "why_tests_cant": "The report runs other methods of the model inside the handler of an arbitrary exception, in whatever state the model was left.", "anchors": ["pydsge/estimation.py: llike (l.150-186), lprob (l.190-223)", "pydsge/mpile.py: get_par (l.92-269), box_check (l.362-392)"]}
{"id": "C168", "title": "Bounded shocks give bounded simulations over every horizon", "statement": "For every solved model there is a factor M such that a transition from a state and shocks of size up to d never raises and leads to a state of size up to M(1+d), and a simulation is of size up to M^i(1+d) after i periods; whatever spells are found or imposed, and whatever the error flags say.", "quantifier": "all solved models, table sizes, states, shocks, spells inside the tables, simulations of any length, with and without the constraint", "why_tests_cant": "The transition jumps between many affine pieces, and there is no a-priori bound on states or shocks; a test sees finitely many of them.", "anchors": ["pydsge/tools.py: t_func, simulate", "pydsge/engine.py: find_lk, bruite_wrapper, t_func_jit"]}
{"id": "C169", "title": "All methods use the same prior, as the user has changed it", "statement": "Users may change mod.prior in place (as the tutorial does). Prior draws, bounds and initial values, the densities and the prior means then all belong to the changed prior, whatever else is called, and also after saving and loading the model.", "quantifier": "all priors, changes, and histories of changes, preparations (with and without errors), sampling, and saving and loading", "why_tests_cant": "Four copies of the prior are kept at different places and renewed at different times; only some orders of calls reveal a disagreement.", "anchors": ["pydsge/mpile.py: prior_sampler, get_par, box_check", "pydsge/estimation.py: prep_estim", "pydsge/parser.py: DSGE.load, DSGE.read", "pydsge/clsmethods.py: get_chain, save_meta"]}
{"id": "C170", "title": "States and shocks that are not numbers are noticed", "statement": "If a state or a shock is NaN, then t_func and simulate do not return numbers as if nothing had happened: all entries of the states from then on are NaN, and the error flag is set.", "quantifier": "all solved models, table sizes, states and shocks with any entries NaN, simulations of any length, with and without the constraint", "why_tests_cant": "Comparisons with NaN are false, so NaN takes its own way through the nested loops of the search; tests use numbers.", "anchors": ["pydsge/engine.py: find_lk, bruite_wrapper, check_cnst, t_func_jit", "pydsge/tools.py: t_func, simulate, o_func"]}
{"id": "C171", "title": "A model is solved exactly if every spell determines its path", "statement": "set_par solves a model if and only if the linear solver returns a solution and, for every spell (l,k) with l <= l_max and k <= k_max, every state and all shocks, exactly one path of the declared variables satisfies the equations, the constraint under that spell, and the linear solution afterwards. Otherwise the exception of the linear solver or a LinAlgError is raised. Whether it is solved depends neither on the RQ decomposition chosen nor on the order of the parallel loops, and is inherited by smaller tables.", "quantifier": "all declared models (constraint lags not expected in an equation, own coefficient not 1, no coefficient below the tolerance), all table sizes with l_max, k_max >= 1 (and, with the condition on the controls, also 0), all decompositions and schedules", "why_tests_cant": "Both directions quantify over all states, shocks and spells; a test sees one model that happens to be solved or not.", "anchors": ["pydsge/gensys.py: gen_sys", "pydsge/engine.py: preprocess_jittable"]}
{"id": "C172", "title": "Errors in the precomputed tables do not grow", "statement": "If every entry of the precomputed tables is wrong by at most d (rounding, a truncated inverse, a saved and reloaded copy), a step still succeeds, and with eta = d*(1 + sum of |states and shocks|): the constrained variable is at least x_bar - 2*eta whatever the flag, in every period of a simulation; if no error is flagged, it differs from max(x_bar, notional value), both taken from the returned state, by at most (2 + sum of the |coefficients| of the constraint)*eta; and if no number the search compares with x_bar is within eta of it, the spell and the flag are those of the exact tables and every variable is within eta of its exact value.", "quantifier": "all solved models with k_max >= 1, all perturbed tables (also tables chosen depending on the state, so rounding within the products of a step is covered), all states, shocks and simulated sequences", "why_tests_cant": "Tests run with the one set of rounding errors of one machine and library; the claim bounds the effect of every possible set of errors.", "anchors": ["pydsge/engine.py: find_lk", "pydsge/engine.py: t_func_jit", "pydsge/engine.py: check_cnst"]}
{"id": "C173", "title": "The search finds equilibria also with lags in the constraint", "statement": "Let the constraint contain lags, shocks and the constrained variable itself, and let M be the model that is solved in its place (C148: opposite sign of the lags, scaled shocks). t_func reports no error if and only if the path of some spell inside the tables passes the tests, with the tested numbers being, in every period, the values that satisfy the constraint equation of M. If M has an equilibrium with one spell inside the tables that ends on the linear solution, no error is reported; so a reported error means that every such equilibrium has a spell outside the tables. If announced disturbances of the constraint do not reverse, M has at most one equilibrium that ends on the linear solution.", "quantifier": "all solved models in which no variable with a lag in the constraint is expected in an equation and the own coefficient is not 1; all l_max, k_max >= 1 (l_max <= 998), states, shocks and paths", "why_tests_cant": "Infinitely many paths and spells are excluded by a flag; tests see only the flags of some states.", "anchors": ["pydsge/engine.py: find_lk", "pydsge/engine.py: check_cnst", "pydsge/gensys.py: gen_sys_from_yaml"]}
{"id": "C174", "title": "Unique equilibria are carried out as announced", "statement": "If announced disturbances of the constraint equation do not move the constrained variable against their own direction in all periods, then (1) two spells whose expected paths from the same state are equilibria in all periods have the same path; (2) an impulse response in which t_func reports an equilibrium at impact and at every state of the path expected at impact follows that path in every period, for every horizon, and (3) returns to the steady state if the linear model is stable. No assumption is made on which spells pass the tests of the search, or on the spells reported in later periods. (4) Where flag 0 means an equilibrium in all periods (C193), it is enough that no error is reported at impact: then none is reported in any later period, and (2) and (3) follow.", "quantifier": "all solved models (constraints with lags, shocks and the constrained variable itself, about the model that is solved), all states, shocks, spells and horizons", "why_tests_cant": "The property is about the agreement of infinitely many searches, one per period, each over all spells and over paths without end.", "anchors": ["pydsge/engine.py: find_lk", "pydsge/engine.py: t_func_jit", "pydsge/tools.py: irfs"]}
{"id": "C175", "title": "The message about multiple equilibria is right", "statement": "irfs reports multiple equilibria exactly when, in some period without a shock, there is another equilibrium than the one that is continued; without the report the response is the one without force_init_equil; and an error flag is returned exactly when the search failed in some period.", "quantifier": "all solved models with k_max >= 1, all shock lists, initial states and horizons, no imposed spell", "why_tests_cant": "The report compares two spells, the claim is about paths without end and about all equilibria; the cases in which they differ depend on the model.", "anchors": ["pydsge/tools.py: irfs (l.270-282, 309-331, 343)"]}
{"id": "C176", "title": "Exactly which model files are accepted", "statement": "A model file is accepted by the parser and its matrices are built iff: names of variables contain no space, clash with nothing else and (apart from doublets beside equations without symbols) are distinct from one another and from the names the parser adds for lags, leads and lagged shocks; there is one constraint c = r with dates 0/-1 of variables and 0 of shocks; one equation fewer than variables; equations with at most one '=' over declared names without leads of shocks; every variable and shock occurs in an equation; every measurement equation has a name and only variables of this and the last period. Neither parameter values nor dictionary order matter, nor the order of declarations.", "quantifier": "all model files (with a constraint section, expressions over + - * / ** and dated names), all parameter values, all iteration orders of dictionaries", "why_tests_cant": "Acceptance is a property of arbitrary files; the rejecting code is spread over a dozen checks, IndexErrors of sympy matrices and NameErrors of eval, and some cases (names of added variables, doublets) only show for special combinations.", "anchors": ["pydsge/parser.py: DSGE.parse (l.645-921)", "pydsge/parser.py: DSGE.__init__ (l.114-330)", "pydsge/gensys.py: gen_sys_from_yaml"]}
{"id": "C177", "title": "Where equilibria are unique, one constant bounds the effect of every change", "statement": "For every solved model there is a constant M such that, whenever at all points between two pairs of states and shocks the search succeeds and the spells that pass its tests agree, the results of t_func differ by at most M times the largest difference of lagged states and shocks - however far apart the two pairs are and however many spells lie between them. Simulations then differ after n periods by at most M^n times the difference of their inputs. If announced disturbances do not reverse and the paths that pass are equilibria, the spells that pass agree. Where announced disturbances do not reverse and the rule does not fall below the bound again once it is above, it is enough that no error is reported between the two pairs.", "quantifier": "all solved models with k_max >= 1, all pairs of states and shocks of any size, all simulations", "why_tests_cant": "The constant has to hold for all pairs of points and all sequences of regions between them; a jump at one boundary between regions would not be seen by samples.", "anchors": ["pydsge/tools.py: t_func (l.17-96), simulate", "pydsge/engine.py: find_lk, check_cnst, t_func_jit"]}
{"id": "C178", "title": "Names for combinations of variables can be introduced or substituted", "statement": "If a model file defines names for linear combinations of variables (w = Q v) and uses the names, also with leads and lags, in its equations and in its constraint, then all other variables have the same equilibria (l,k), flags and paths as in the model file with the combinations written out, in every transition and in every simulation that starts where the definitions hold; and the names have the values they are defined to have in every period.", "quantifier": "all models, all sets of names, all states in which the definitions hold, all sequences of shocks, all sizes of the tables", "why_tests_cant": "The two files are solved with other states, other matrices and other rotations: a lagged name makes the name a state instead of the variables in it. Tests can compare single pairs of files only.", "anchors": ["pydsge/gensys.py: gen_sys_from_dict, gen_sys_from_yaml, gen_sys", "pydsge/engine.py: preprocess_jit, find_lk, t_func_jit", "pydsge/tools.py: t_func, simulate"]}
{"id": "C179", "title": "t_func imposes the durations it is given and reports durations that belong to the result", "statement": "t_func(set_k=(l,k)) returns the first period of the path that is expected if the constraint binds after l periods for k periods, and reports these numbers; durations that are negative or do not fit the tables are rejected. Whatever is given, the state that is returned belongs to the durations that are returned.", "quantifier": "all models, all states and shocks, all pairs of integers, all sizes of the tables", "why_tests_cant": "Negative numbers count from the end of the tables, so what they mean depends on l_max and k_max, and numbers outside are not checked by compiled code; tests try durations that make sense.", "anchors": ["pydsge/tools.py: t_func l.60-104", "pydsge/engine.py: t_func_jit l.248-264", "pydsge/tools.py: irfs l.291-317"]}
{"id": "C180", "title": "get_cov returns the covariance of the shocks and only reads", "statement": "get_cov() returns the covariance matrix of the shocks for the current parameters, and get_cov(npar) that for the given parameters; this is the covariance that the filter works with; and the model is the same afterwards.", "quantifier": "all models, all current parameters, all vectors npar of all or of the estimated parameters, whether or not the model can be solved for them", "why_tests_cant": "The returned matrix looks right in any example. What is written along the way, and what the result means next to the covariance in the filter, is only visible by following every write to the model, also on the ways that end in an exception.", "anchors": ["pydsge/mpile.py: get_cov, get_par", "pydsge/gensys.py: gen_sys_from_yaml", "pydsge/filtering.py: create_filter"]}
{"id": "C181", "title": "An equilibrium exists for every horizon, and tables of every size can be computed", "statement": "From every state and with every shock there is exactly one path that solves all equations in all periods, on which the constraint is in force up to a given horizon, and which follows the linear solution afterwards; gen_sys can compute the tables for all numbers of periods; and an error of t_func says that the equilibrium is not one spell inside the tables, not that there is none.", "quantifier": "all linear models with one occasionally binding constraint that can be solved, all states, all shocks, all horizons, all l_max and k_max, equilibria with any number of spells of any length", "why_tests_cant": "It is about all binary patterns of binding periods, whose number is exponential in the horizon, about the existence of a solution of infinitely many equations for each, and about matrices of all sizes being invertible. The code only ever tries single spells inside its tables.", "anchors": ["pydsge/engine.py: preprocess, find_lk, check_cnst", "pydsge/tools.py: t_func", "pydsge/gensys.py: gen_sys"]}
{"id": "C182", "title": "Every entry of a model file acts only where it is named", "statement": "Changing the value of a parameter changes only those parts of the model whose text names it: a parameter that nothing names changes nothing (neither the model nor the error), one that only the measurement equations name changes neither matrices nor constraint, functions of parameters depend only on the names they mention, and the measurement equations have no influence on the solution, on impulse responses and on simulations of the states.", "quantifier": "all model files with any equations, leads and lags, all parameter values, all orders in which substitutions are made, all measurement equations and numbers of observables, all states, shocks and horizons", "why_tests_cant": "It is a non-interference statement: it compares all pairs of parameter vectors and all model files, through parsing, added variables, differentiation and solution. A test compares finitely many pairs for one file.", "anchors": ["pydsge/parser.py: DSGE.parse, get_matrices", "pydsge/gensys.py: gen_sys_from_yaml, gen_sys", "pydsge/tools.py: t_func, irfs, simulate"]}
{"id": "C183", "title": "Exogenous processes follow their own law, whatever the constraint does", "statement": "If some equations of the model, without leads, contain only some of the variables and shocks, then these variables follow these equations in every transition, simulation and impulse response: neither a spell that is found, nor one that is imposed or forced, nor the linear option, changes them. Two models that share such a process, and differ in everything else, give the same path of it for the same past and the same innovations.", "quantifier": "all declared models with such a block of equations (any number of equations, variables and shocks in it), all bounds and sizes of the tables, all states, shocks, horizons, imposed spells (negative ones too), linear or not, and all pairs of models", "why_tests_cant": "The solution mixes all variables in its matrices (QR, Klein, tables for every spell), so that the invariance is not visible in the code. A test checks the path for one model and some shocks, and only under the spells that happen to occur.", "anchors": ["pydsge/gensys.py: gen_sys", "pydsge/engine.py: preprocess_jit, find_lk, bruteforce", "pydsge/tools.py: t_func, irfs, simulate"]}
{"id": "C184", "title": "The past and the shocks act only through the equations", "statement": "In a determinate model, a transition depends on the last state and on the shocks only through what they contribute to the equations and to the constraint: if two states with shocks contribute the same, t_func returns the same state, durations and flag (or the same error), for spells that are found or imposed, linear or not. So a shock is the same as the past that does the same to the equations, and shocks with the same loadings are interchangeable in simulations. Conversely the next state and the durations tell these contributions (that to the constraint unless it binds at once), so a simulated path and its durations determine the shocks if the loadings have full rank.", "quantifier": "all declared models that are determinate with a stable linear solution (or with any other class of paths in which the solution is unique), all pairs of states and shocks, all sizes of tables, all imposed spells, all horizons", "why_tests_cant": "The code never compares what states and shocks contribute: they enter one stacked vector that is multiplied by matrices from a QR and a Klein decomposition and by tables for every spell. The claim is about all pairs of inputs with equal contributions and needs uniqueness of the solution.", "anchors": ["pydsge/gensys.py: gen_sys", "pydsge/engine.py: preprocess_jit, find_lk, t_func_jit", "pydsge/tools.py: t_func, simulate"]}
{"id": "C185", "title": "Shocks have a share in the variance of a variable exactly if they move it", "statement": "In the variance decomposition of gfevd, for a variable that some shock moves, the share of a shock is positive if it moves the variable in some draw of the sample and zero otherwise. In particular a shock has a share of zero in every variable of an exogenous process that it does not enter, also where it makes the constraint bind, with different parameters in every draw.", "quantifier": "all samples of solved models, states and residuals; all horizons; linear or not; all declared models with a determined process", "why_tests_cant": "A share of exactly zero needs equality of two simulated paths with and without the shock, whatever spells are found on either of them, for all models that contain the process.", "anchors": ["pydsge/stats.py: gfevd", "pydsge/tools.py: irfs, t_func", "pydsge/engine.py: find_lk, t_func_jit"]}
{"id": "C186", "title": "The constraint moves other variables in the direction of announced disturbances", "statement": "A path under an expected spell differs from the linear path by exactly the response of the linear model to announced disturbances of the constraint equation: in the periods of the spell the distance between x_bar and the value that satisfies the constraint equation, in all other periods none. So if the constraint genuinely binds in the periods of the spell (which is tested for spells of at most two periods), it lowers every variable that announced increases of the constrained variable lower and raises every variable that they raise: in single transitions of t_func, and period by period in impulse responses that follow what was expected at impact.", "quantifier": "all declared models whose lags in the constraint are not expected, all states and shocks, all spells inside the tables, all variables and periods, all horizons", "why_tests_cant": "The comparison is between two paths that are computed from different entries of the tables, and its sign is claimed for all states, shocks and spells; the disturbances are nowhere computed in the code.", "anchors": ["pydsge/engine.py: preprocess_jit, find_lk, t_func_jit", "pydsge/tools.py: t_func, irfs"]}
{"id": "C187", "title": "Simulations with the constraint stay on one side of the linear simulation", "statement": "Let the linear model keep an order of states (lower in some variables, higher in others) from one period to the next, and let announced increases of the constrained variable not raise the former nor lower the latter. Then a simulation with the constraint in force that reports no error stays, period by period, below the linear simulation with the same shocks in the former variables and above it in the latter; so do impulse responses to any list of shocks in any periods. Spells of more than two periods must genuinely bind (automatic for k_max up to 2). So responses to shocks of opposite sign do not cancel: from the steady state their mean is not above it in the former variables and not below it in the latter.", "quantifier": "all declared models with such an order, all initial states in that order, all lists of shocks, all horizons, all sizes of tables", "why_tests_cant": "The two runs pass through different states after the first binding period and meet different spells; the claim is for all sequences of shocks.", "anchors": ["pydsge/tools.py: simulate, irfs, t_func", "pydsge/engine.py: find_lk, t_func_jit"]}
{"id": "C188", "title": "Worse states and shocks lead to worse paths, also with the constraint", "statement": "Let announced disturbances of the constraint not reverse, and announced increases of the constrained variable not raise it in other periods. If the linear path of the constrained variable from one state and shock is nowhere above that from another, then in equilibrium (with any number of spells) the constraint lifts it by at least as much in every period, binds wherever it strictly binds on the other path, and each variable that announcements lower and that is not higher on the linear path is not higher in equilibrium. So two simulations, or impulse responses, with the constraint from ordered states with ordered shocks stay ordered in all periods, as long as no error is reported.", "quantifier": "all declared models with these properties, all pairs of states, all pairs of lists of shocks, all horizons, all sizes of tables", "why_tests_cant": "The two runs meet different spells in every period; comparative statics for all pairs of states and shocks cannot be sampled.", "anchors": ["pydsge/tools.py: simulate, irfs, t_func", "pydsge/engine.py: find_lk, t_func_jit, preprocess"]}
{"id": "C189", "title": "Averages of simulations with the constraint are worse than the simulation of averages", "statement": "Let announced disturbances of the constraint not reverse, and announced increases of the constrained variable not raise it in other periods. Then what the constraint adds in equilibrium is in every period the least that keeps the constrained variable at or above its bound; it is convex in the linear path, and grows at least in proportion with the size of a disturbance. So the weighted average over any finite sample of simulations (any initial states and shocks) is in every period at most as good as the simulation from the average state with the average shocks: lower in variables that announced increases lower, higher in those that they raise, as long as no error is reported. With c >= 1 times the shocks, simulations and impulse responses are in every period at most as good as c times those with the shocks.", "quantifier": "all declared models with these properties, all finite samples, all weights, all lists of shocks, all horizons, all sizes of tables", "why_tests_cant": "An inequality over all samples, weights and horizons, with different spells in each member of the sample and each period.", "anchors": ["pydsge/tools.py: simulate, t_func", "pydsge/engine.py: find_lk, t_func_jit, preprocess"]}
{"id": "C190", "title": "No imposed spell is worse than the equilibrium, and longer spells are expansionary", "statement": "Let announced disturbances of the constraint not reverse, and announced increases of the constrained variable not raise it in other periods. Then any spell that is imposed with set_k, of any start and length inside the tables, adds to the constrained variable in every period at most what the constraint adds in equilibrium; in every period each variable that announced increases lower is at least as high as in equilibrium, and each that they raise at most as high. So with any set_k the state after one transition, and the impulse responses to shocks of the first period in all periods, are at least as good as those with the spells that are found. Of two imposed spells, one inside the other, the longer one is at least as good if the shorter one leaves the constrained variable at or above the bound in the periods that are added.", "quantifier": "all declared models with these properties, all states, all shocks, all imposed spells inside the tables, all horizons, all sizes of tables", "why_tests_cant": "A comparison of the path that is found with the paths under every spell that can be imposed, in every period, state and shock; a test runs a few spells from a few states.", "anchors": ["pydsge/tools.py: irfs (set_k), t_func", "pydsge/engine.py: find_lk, t_func_jit, preprocess"]}
{"id": "C191", "title": "Uniqueness of equilibria can be read from the responses to single announcements", "statement": "Consider the responses of the linear model to single announced increases of the constrained variable, one for each period. They do not raise the constrained variable in other periods, and announced disturbances do not reverse (so that there is exactly one equilibrium for every state, shock and horizon, and C173, C174, C177, C181 and C186 to C190 apply), if and only if none of the responses is positive in another period and for every horizon some positive announcements raise the constrained variable in all its periods. In particular it is enough that in each period the responses within the horizon sum to a positive number.", "quantifier": "all declared models with l_max >= 1, all horizons, all announced disturbances, all states and shocks", "why_tests_cant": "The condition that announcements do not reverse quantifies over all disturbances of all lengths; a test can only try some, while the criterion reduces it to responses that can be computed one by one.", "anchors": ["pydsge/engine.py: find_lk, preprocess, t_func_jit", "pydsge/gensys.py: gen_sys"]}
{"id": "C192", "title": "Worse states and shocks mean longer spells at the bound, a lower bound shorter ones", "statement": "Let announced disturbances not reverse, announced increases of the constrained variable not raise it in other periods, and let what is reported without an error be an equilibrium. If the linear path of the constrained variable from one state and shock is nowhere above that from another, then the constrained variable is nowhere higher in equilibrium, and the spell (l,k) that t_func reports ends no earlier than the one for the other (if that has two or more periods, or really binds), and begins no later as long as the tables have room for a spell that begins as early. The same holds period by period for simulations and impulse responses from ordered states with ordered shocks. If only the bound is lowered, the reported spell ends no later and begins no earlier. The last period of a reported spell of two or more periods always binds strictly.", "quantifier": "all declared models with these properties, all states, shocks, simulations, lists of shocks, all sizes of tables with l_max >= 1 and at most 999 rows", "why_tests_cant": "The claim compares the durations that the search returns for all pairs of ordered states; whether the first spell that passes the tests is the right one to compare depends on all candidates that come before it, including ties at the bound.", "anchors": ["pydsge/engine.py: find_lk, bruite_wrapper, t_func_jit", "pydsge/tools.py: t_func, simulate, irfs"]}
{"id": "C193", "title": "What is reported without an error satisfies the constraint in every period of its expected path", "statement": "If t_func reports a spell (l,k) with flag 0, the path that is expected with this spell is an equilibrium: in every period, also in those that find_lk and bruite_wrapper do not test, the constrained variable is the larger of the bound and what its rule gives. In general this holds exactly if the rule is on the right side of the bound in the untested periods.", "quantifier": "all declared models that can be solved, all states and shocks, all sizes of the tables, all periods of the infinite expected path", "why_tests_cant": "The search looks at no more than five periods of a spell, or at the first l_max + 1 periods without one; the claim is about all of the infinitely many periods of the expected path, for all states.", "anchors": ["pydsge/engine.py: find_lk, bruite_wrapper, check_cnst", "pydsge/tools.py: t_func"]}
{"id": "C194", "title": "The measure of a main shock does not depend on the order of observables and shocks", "statement": "The computation of `mbcs_index` gives the same number, or the same exception, if the observables or the shocks are listed in another order.", "quantifier": "all arrays, all permutations of rows and columns, all numbers of rows and shocks", "why_tests_cant": "A statement about all permutations and all arrays; the order matters only for equal shares, which samples of real numbers do not show.", "anchors": ["pydsge/stats.py: mbcs_index (l.132-147)"]}
{"id": "C195", "title": "A model without leads, or without lags, stays so", "statement": "If no equation of the model file contains a lead, the parsed system contains none: no variable becomes forward looking by parsing. If none contains a lag (of a variable or shock), the parsed system contains none: no states are added.", "quantifier": "all systems of equations, all lag lengths of variables and shocks", "why_tests_cant": "Depends on all combinations of dates with which a variable occurs; the models in tests contain leads anyway.", "anchors": ["pydsge/parser.py: DSGE.parse (l.825-872)"]}
