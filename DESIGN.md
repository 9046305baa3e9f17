# Design

A Lean 4 model of `gboehl/pydsge` (source in `/repo`, read as text), and machine-checked theorems about it.

## Layout

* `lean/Verif/Model/*.lean`: the model. One definition per function (or loop) of the code, branch by branch. Every
  definition cites the file and lines it models, and says where it simplifies.
* `lean/Verif/Spec/*.lean`: small specifications that do not mention the model's helpers (model equations on paths,
  spells, "is the least accepted pair", "is a solution of the equations as written", ...).
* `lean/Verif/Lemmas/*.lean`: helper lemmas.
* `lean/Verif/Props/*.lean`: the property theorems `Cnn_...`, each with a non-vacuity `example`/theorem and, where the code
  violates the property, a refutation theorem `Cnn_..._refuted` with a concrete witness next to the `_partial` theorem.
* `seeded/LOG.jsonl`: wrong programs tried against the theorems.

## Conventions

* Numbers. The code computes in IEEE doubles. The model computes in an arbitrary ordered field `K` (exact arithmetic),
  so it is executable at `K = Rat`. Rounding and overflow are NOT modelled; C172 bounds the effect of errors in the tables.
  NaN is an explicit value where it is part of the control logic, e.g. `isnan(res)`; its propagation through a step is C170.
* Arrays. Dense arrays become Mathlib `Matrix` over finite index types; a split of an array at `dimq` becomes a `Sum`
  index. `np.empty` arrays become partial maps (`none` = not yet written), so that reading before writing is visible.
  Where negative-index slicing itself matters, arrays are `List`s with Python slice semantics.
* Exceptions are values (`Except PyErr _`). An out-of-bounds read in nopython numba code is the error `oob`
  (in reality undefined behaviour).
* Loops are folds over ranges or structural recursions; parallel loops are folds over an arbitrary permutation.
* `self` is a structure; a method returns the new structure. A method that raises half way returns the error together
  with the partially updated structure where the property is about crash points.
* External libraries are parameters with an explicit contract that appears as a hypothesis of the theorems that need it:
  `scipy.linalg.rq` (M = R Q, Q orthogonal, R upper triangular), `grgrlib.klein` (returns a solution of the linear RE
  system), `solve_discrete_lyapunov` (returns a solution), `pinv` (E pinv(E) E = E), `fast0` (|x| < tol), `dill`/`deepcopy`
  (independent copy), `emcee`/`emcwrap`, `sympy` (expression trees), `pandas`, `yaml`.

## Trusted base

* Lean 4.33's kernel, and the axioms `propext`, `Classical.choice`, `Quot.sound` (checked with `#print axioms`; no others).
* The reading of `/repo`: nothing is extracted or executed; the tie is the citation at each definition.
* The contracts of external libraries as listed above.

## What is modelled and what is not

Per source file. "Modelled" means there is a definition in `lean/Verif/Model` that follows the lines branch by branch.

| file | modelled | not modelled |
|---|---|---|
| `engine.py` | `get_lam`, `get_omg`, `preprocess_jittable`, `preprocess_tmats(_jit)`, `t_func_jit`, `find_lk`, `bruite_wrapper`, `check_cnst` (`Model/Engine`, `Tools`; with values that are not numbers: `Nan`) | the wrapper `aca` and messages; numba compilation; timing (l.190, 196-200, 211, 217-221) |
| `gensys.py` | all of `gen_sys_from_dict`, `gen_sys_from_yaml`, `gen_sys` (`Model/GenSys`, `Pipeline`, `Dict`, `Names`, `Params`, `Masked`) | the numerics of `klein`, `rq`, `inv`; messages other than those with names of variables (C165) |
| `tools.py` | `t_func`, `o_func`, `irfs`, `simulate`, `shock2state`, `mask`, `traj`, `k_map` (`Model/Tools`, `Batch`, `Calls`, `Mask`, `Slices`, `Pack`, `Nan`) | messages and labels of data frames, progress bars |
| `mpile.py` | `get_par`, `get_cov`, `set_par`, `box_check`, `posterior_sampler`; the preparation in `prior_sampler` (`Model/Params`, `GetCov`, `Files`, `PrepEstim`, `Mcmc`, `PriorHist`); which existing arrays `get_par` returns (`Model/Alias`) | the loop of `emcwrap.get_prior_sample` |
| `estimation.py` | all: `prep_estim` with `llike`, `lprob`; `create_pool`, `mapper` (`Model/Estim`, `Mcmc`, `PrepEstim`, `VerbLike`, `PriorHist`) | processes of the pool; warnings turned into errors (an exception of the solver is any exception); messages |
| `filtering.py` | `create_obs_cov`, `get_p_init_lyapunov`, `get_eps_lin`, `create_filter`, `get_ll`, `run_filter`, `extract` (`Model/Filter`, `Create`, `Extract`, `Estim`) | the filters themselves (`batch_filter`, `rts_smoother`, `npas` of other packages); `extract` l.355, 409 (seeds from the generator) is an arbitrary list of seeds |
| `mcmc.py` | settings, backend files, choice of the mode, starting values (`Model/Mcmc`, `Chains`) | the sampler (`emcwrap.run_mcmc`: any sequence of draws); the time stamp |
| `parser.py` | `read`, `load`, `crawl_cached_models`; `parse`: the replacements in the text of the file (l.653-659, `Model/Text`); on the parsed YAML: declarations, equations, leads and lags, constraint, measurement equations, parameter functions, covariance, prior; `get_matrices` (`Model/Cache`, `Persist`, `Parser`, `Resolve`, `Expr`, `Cov`, `ParaFunc`, `Pipeline`, `Assemble`); `DSGE.__init__`, `neq`, `neq_fort`, `neta` (`Book`) | YAML (but for repeated keys), the tokeniser of sympy and `lambdify` (expression trees are evaluated directly); `__repr__`, other one-line properties |
| `symbols.py` | `TSymbol`, `Variable`, `Shock`, `Equation` (`Model/Symbols`, `Expr`) | `Parameter.__repr__`, `fortind`, `LaggedExpectation` (not used) |
| `stats.py` | `gfevd` (from its dictionary to the shares: `Model/Gfevd`, C141), `nhd`, `mdd`, `post_mean`, `sort_nhd`; `mbcs_index`: its first statement, where it fails (C78), and the rest (C137) (`Model/Stats`, `Chains`, `Mbcs`); `pmdm_report` (`Report`) | the text of the header of `pmdm_report`; the integration in `emcwrap` |
| `clsmethods.py` | all (`Model/Files`, `Chains`, `Persist`, `Dict`, `Info`) | plots, `emcwrap.summary` |
| `utils.py` | `_dumper` (`Model/Dumper`) | what `str()` prints |

Contracts of other packages, beyond those listed under Conventions: `np.savez`/`np.load` give back what was stored under the same key and path (`None`
comes back as an object that prints as `None`); `cpickle` gives back an independent equal object or raises; `map2arr` stacks results in the order of the tasks;
`serializer` gives a function with the same values; `pathos` pools run every task exactly once on a copy; `emcee` backends are lists of steps.

Version of numpy (the repository does not pin one): comparing an array of numbers with a string is taken to give one result per entry, as numpy does from 1.25 on. Then
`dummy in pars_str` (mpile.py) for an array of several values is a `ValueError`. With an older numpy, for a list, or for an array of at most one value, the comparison is a single
`False`, and `get_par`/`set_par` with a vector of the wrong length end in the `KeyError` at the end instead. Theorems that name the `ValueError` of this step rest on this choice; that
such a call fails does not. `C151_array_refuted` (scattered copies of an array) rests on it altogether: with an older numpy the comparison `dummy not in ("prior", "post", "posterior")` there is `True` and the
copies are made.

## Plan per property
* **C01 Expected paths solve the declared model**: Model gen_sys (aux variables, y-space, inq/inp split, constraint row), preprocess (T22/W22 normalisation, (l,k) recursion) and t_func. Prove by induction on the elapsed periods that the recursion solves the transformed system, undo rq and the normalisation (invertible row operations), read off the declared rows. Needs: no lagged forward variable in the constraint (C24), no lag sign flip (C23): stated relative to the row the code builds, then specialised to declared rows. The klein contract covers cell (0,0).
* **C02 The simulated constrained variable never falls below its bound**: From C01 at period 0 and the exit conditions of find_lk, case split over (0,0), (0,k), (l,k).
* **C03 Flag 0 means the constraint holds as r = max(notional, x_bar)**: As C02 with the additional check at period l.
* **C04 The (l,k) search is sound, complete and minimal**: Model find_lk and bruite_wrapper over an arbitrary table; prove equivalence to 'least accepted pair' by induction over both loops. Includes the 999 sentinel.
* **C05 The (l,k) search terminates inside the precomputed tables**: Reads return `oob` outside the table; prove no `oob` for k_max >= 1; refute for k_max = 0, reachable by prep_estim(linear=True).
* **C06 No uninitialised table cell is ever used**: np.empty arrays as partial maps; prove the fold never reads `none` and that find_lk only reads written cells.
* **C07 Parallel preprocessing equals serial preprocessing**: prange loop as a fold over a permutation of the range; prove the result equals the serial fold.
* **C08 The linear solution is the same object everywhere**: (omg, lam) solves the linear system => U-step is stationary; induction on l.
* **C09 Linear simulations obey superposition**: t_func with linear=True as a linear map; irfs by induction on T.
* **C10 The steady state is a fixed point**: Induction; bterm[.,l,0] = 0 from C08.
* **C11 Precomputed constraint values equal simulated ones**: Loop invariant of the inner s-loop against the step-by-step simulation.
* **C12 traj returns the trajectory for the equilibrium it reports**: Refute (uses column k-1); prove what is returned: the trajectory for (l,k-1), wrapping to k_max for k=0 (partial).
* **C13 k_map and traj use the current parameters**: State machine over set_par/traj/k_map with the cached table; refute; partial: histories whose first traj/k_map is after the last set_par.
* **C14 Imposing the equilibrium that was found changes nothing**: Unfold t_func: both calls read the same cell.
* **C15 Without new shocks the imposed spell continues consistently**: Induction on elapsed periods; spell arithmetic max/min.
* **C16 irfs applies an imposed set_k as a spell that elapses with time, or raises**: Model the set_k branch of irfs with integers; prove bounds.
* **C17 irfs for several parameter sets is independent of order and leaves the model untouched**: irfs as map over pickled copies; list map/perm lemmas.
* **C18 force_init_equil keeps the initial equilibrium**: Refute (shocks in period 0 only; nonzero state before the first shock); partial: the forced continuation when some shock has a nonzero period.
* **C19 simulate is the iterated transition function**: Lists; fold over append. `masked` combines a mask with the residuals as numpy does: equal lengths row by row, one row against many, any other pair of lengths is a ValueError (`C19_mask_rows`).
* **C20 Observables computed inside and outside the transition agree**: Unfold both; linear algebra.
* **C21 Observables equal the declared measurement equations**: Expression trees for measurement equations; refute for lagged variables (silently dropped); partial for contemporaneous ones. The accepted equations are characterised; a text without names is a number of Python, on which `subs` fails (`plainNum`).
* **C22 Confidence intervals are ordered**: Refute for observables with negative loadings; partial for states and for non-negative loadings.
* **C23 The constraint equation enters with the declared coefficients**: Refute: lagged coefficients enter with flipped sign when fd is given; partial without lags in the constraint.
* **C24 No forward-looking term is lost**: Refute with a model whose constraint contains the lag of a forward-looking variable; partial otherwise.
* **C25 Auxiliary lag variables do not change the model**: Typed block matrices; both directions.
* **C26 The state vector lists each variable exactly once**: Masks on the index set; counting. Names: refute with a declared variable called `<name>_lag`.
* **C27 l_max and k_max are sticky**: Decision function for lks; induction over histories.
* **C28 x_bar is taken from the declared place and is never positive**: Decision function.
* **C29 A failed set_par leaves the model unchanged**: Pipeline with failure points; refute; partial: which attributes are unaffected by which failure.
* **C30 set_par / get_par round trip for a single parameter**: State machine of mpile with parameter vectors as lists.
* **C31 set_par accepts full and estimated-only vectors**: As C30; disambiguation when both lengths coincide is part of the statement.
* **C32 set_par with npar edits the named entry of a copy**: Refute when all parameters are estimated in another order; partial otherwise.
* **C33 set_par on a named parameter set equals get_par of that set**: Refute (string length equals a model dimension, or no prior); partial otherwise.
* **C34 get_par only reads**: Refute; partial: arguments for which it is true.
* **C35 box_check reports exactly the parameters outside their bounds**: Refute for the default argument; partial for explicit vectors.
* **C36 Higher lags of endogenous variables are represented exactly**: Syntax of equations, substitution, semantics on paths; equivalence of solution sets.
* **C37 Higher leads of endogenous variables are represented exactly**: Refute for leads >= 3; partial for leads <= 2.
* **C38 Lagged shocks are represented exactly**: As C36.
* **C39 The numeric matrices reproduce the linear equations**: Symbolic differentiation on expression trees (`Lemmas/Deriv.lean`: along one symbol an expression is a polynomial, so the derivative of an affine function is its coefficient).
* **C40 Parameter functions are resolved independently of their order**: Fixpoint loop; prove termination, characterise success, order independence.
* **C41 Covariance entries are symmetric and off-diagonal entries are honoured**: Refute: a key `a,b` makes parsing fail; prove symmetry for what is accepted and for measurement errors (partial).
* **C42 A model that is read corresponds to the files on disk**: State machine over the module-level cache; refute (missing functions file, second directory); partial.
* **C43 Function caches are transparent**: Memo table invariant.
* **C44 Evaluating the posterior is pure**: State machine with an abstract generator state.
* **C45 lprob is total and has the documented value**: Extended values (finite, +-inf, NaN).
* **C46 The stored mode is the best sampled draw**: Row-major flattening and argmax.
* **C47 mcmc works with its default arguments**: Refute (default raises after sampling); partial for explicit tune.
* **C48 Stored chains are only replaced on purpose**: File system state machine; first half proved, second refuted.
* **C49 Worker pools are always usable**: State machine of the pool attribute; refute (pool None after debug); partial.
* **C50 Estimation settings persist**: Settings dictionary.
* **C51 The Kalman filter runs on the linear model**: Block matrices; refute repetition when the number of variables equals the number of shocks; partial otherwise.
* **C52 The initial covariance is stationary**: Block matrices with the Lyapunov contract.
* **C53 Extracted linear shocks reproduce the path**: Induction over the path.
* **C54 Filtering input is validated and the likelihood is never NaN**: Decision function over shapes and extended values.
* **C55 extract retries with a different seed**: Refute (same seed every time); characterise.
* **C56 Variance shares add up to one**: Finite sums.
* **C57 Historic decompositions add up**: Induction over periods; refute when the relative contributions sum to zero; partial otherwise, for one sample and for the averages over all of them.
* **C58 sort_nhd bands are consecutive and exact**: Fold invariants.
* **C59 Posterior samples come from the kept part of the chain**: Index arithmetic; get_sample refuted, posterior_sampler proved.
* **C60 Saved results can be loaded under the same name**: Path arithmetic on strings, file store as a map; refute for names ending in .npz or shorter than 4; partial.
* **C61 load_data delivers complete data in model order**: Data frame as list of columns. Whole outcome and exact condition for repeated names in `Props/Outcomes.lean`.
* **C62 Variable and observable indices are correct**: List index lemmas.
* **C63 Time shifts of symbols compose**: Structure with integer date; printing and reading back.

* **C64 The search result does not depend on the 999 sentinel**: Refute with a table of a thousand rows; partial: tables of any size, unless the least consistent pair is in row 999.
* **C65 k_map reports the constraint values of the spells it enumerates**: From the table lemma of C11. Which spell is looked at is in `Props/TrajArgs.lean`: `l = 0` without `k` is taken for a missing `l` (`C65_zero_refuted`).
* **C66 A list of shocks is the sum of its entries**: Fold over the list; refute for repeated entries (overwritten); partial for distinct entries, also on the level of `irfs`.
* **C67 Impulse responses respect the bound**: C02 per period; refute when `force_init_equil` imposes (0,0) before the first shock.
* **C68 obs works for a single state**: The shape rule of `pandas.DataFrame` as a contract; refute for two or more observables.
* **C69 simulate works without a source**: Decision function over the optional arguments; refute.
* **C70 Intervals of observables have the width they claim**: Quadratic form against the linear sum of standard deviations; refute, prove the inequality.
* **C71 l_max can be given without k_max**: Decision function for lks; refute (`None > 0`).
* **C72 Zero shock loadings in the constraint equal no shock loadings**: Compare both branches; refute when lags are in the constraint; without them, `gen_sys` returns the same model.
* **C73 Estimated parameters can be fed back**: State machine of mpile; refute when all parameters are estimated in another order; partial otherwise.
* **C74 Constant terms in model equations are kept or rejected**: As C39; refute (`x = 1 + x(-1)` loses its 1); partial: exact iff the constant is zero. `C74_dropped` (`Props/Constants.lean`): adding constants to any equations and to the constraint changes neither acceptance nor the model (through the treatment of leads and lags, the matrices, the row of the constraint and the measurement equations).
* **C75 The stored mode is a parameter vector**: `modeOf` on the chain and `lprob` of the model; refute with a shift as transformation; partial without transformation.
* **C76 Default starting values of the sampler**: `get_par` model; refute for every model (a single vector); partial for given `p0`.
* **C77 prep_estim() repeats the previous set-up**: Settings dictionary; refute for bounds and seed; partial if both arguments are repeated.
* **C78 mbcs_index works**: Shapes of the first matrix product; refute for every model with states; the product exists exactly without states.
* **C79 post_mean averages the kept draws**: Slices of lists; refute for given chains (truth value of an array); partial without.
* **C80 The error flag of irfs covers all periods**: Induction over periods.
* **C81 Observables of a solved model are the declared ones**: Finite sums over the layout.
* **C82 Simulated paths solve the model file as written**: Composition of C36-C39 with C01, C03, C81. The parser's additions are undone period by period from period 0 on, with the past values that the state carries under the names of the added variables (`Spec/ModelFile.lean`); substitutions keep equations linear.
* **C83 write_yaml writes the model text**: Attribute record of a model under any history (`Model/Persist.lean`); refute for every model (`raw_yaml` is never set, the file is opened for writing first).
* **C84 A saved model can be loaded and keeps its settings**: Invariant `Kept` over histories, `np.savez` as a map of archives in which what prints as `None` comes back as `None`, pickling as a contract; refute without data. Pickles contain the attribute `description` if it is set when they are made (by `load`, not by `read`), and every load may happen in a process with its own cache; hence `C84_description_refuted`.
* **C85 A model built from a dictionary is the solution of that dictionary**: Heap of objects and dictionaries, invariant of the cache.
* **C86 Models built from dictionaries are independent**: Same heap; refute (same object, shared dictionary); partial with `force_processing`.
* **C87 Entries of a model dictionary are validated like those of a model file**: The two lookups; refute.
* **C88 Solved models can be simulated, also without lagged variables**: Python's slice rule for `-0`; refute for every model without states, with a solved one (`Examples/Ex4.lean`).
* **C89 get_par returns the documented parameter sets**: Overlay of the estimated values on the calibration, by name; refute for `best`; what `best` returns and exactly when it is documented in `Props/BestSet.lean`.
* **C90 The solution always belongs to the current parameters**: Invariant `InSync` over sequences of calls; refute for named sets and `get_hx_only`.
* **C91 obs with parameters computes and leaves the model alone**: Induction over the paths; refute.
* **C92 prep_estim works for every number of parameters**: `set_par` model with `len` of a string; refute for ten parameters; partial otherwise, with C33, C89, C90, C93.
* **C93 create_filter makes the requested filter or raises**: Decision function over types and arguments (`Model/Create.lean`); refute for the inversion and particle filters and for misspelt types.
* **C94 The covariance of measurement errors is a scaled diagonal of variances**: Finite sums.
* **C95 Linear shocks can be computed for states of the ensemble filter**: Shapes of the products, numpy broadcasting; refute; partial for a state with the shocks appended.
* **C96 The order of variables is respected when parameters change**: `set_par(return_vv=True)` on the attribute record (`Model/Calls.lean`), masks of `gen_sys` for two parametrisations; refute; partial for equal patterns of zeros. `Props/OrderExact.lean` says exactly when: the order is the same if and only if the same pairs of variables are exchanged (`C96_exact`), the states are the same if and only if the same variables are states (`C96_split`), and the labels of `irfs` are right for all values if and only if the orders are equal (`C96_labels_exact`).
* **C97 irfs uses the given parameters and settings**: The start of `irfs` on the attribute record; refute; partial for nonzero vectors.
* **C98 Positions and labels of states line up**: Python slices on lists of positions (`Model/Slices.lean`); this is also the justification for the index types of `Layout`; refute for shocks with zero loadings.
* **C99 Models without shocks can be solved**: Same lists; refute (`[:-0]`).
* **C100 debug concerns one call**: State machine of `debug` and `pool` (`Model/Mcmc.lean`); refute (nothing ever switches it off); partial for calls without the argument.
* **C101 extract releases its workers**: Same machine; refute for failing extractions.
* **C102 init_cov concerns one run**: Attribute `init_cov` of the filters over sequences of runs; refute; partial if given always or never.
* **C103 The computed expected path is the only solution that ends on the linear solution**: The cell recursion has a unique solution (invertible steps), backwards from the linear solution; the declared rows determine the auxiliary ones (`Lemmas/Unique.lean`).
* **C104 Results do not depend on how the equations are written**: Uniqueness applied to both declarations; then both searches read the same values. Example: a declaration with the other sign (`Examples/Flip.lean`).
* **C105 Larger tables keep an equilibrium that was found**: Same values in common cells, minimality of the search. For any two sizes (`Props/AnyTables.lean`): the linear solution does not depend on the sizes (`joins_bounds`), so both reports are equilibria of one model that end on one linear solution, and C173 says there is only one.
* **C106 Units do not matter**: Scaled paths solve the rescaled declaration; uniqueness; the search is invariant under scaling.
* **C107 A longer horizon does not change earlier periods**: Induction over the loop of `runner`.
* **C108 Shocks of later periods do not influence the present**: Congruence of the loop in the shock vectors; refute with a state below the bound.
* **C109 Impulse responses are simulations**: Both loops iterate `t_func`; joint induction.
* **C110 A mask replaces the shocks by its values**: Case split; refute for the default operation.
* **C111 Assigning a column of the mask concerns that shock**: Data frames with labels, numpy broadcasting (`Model/Mask.lean`); refute.
* **C112 shock2state is the state after the shock**: Python slices on lists.
* **C113 Densities belong to the draws they are used with**: Lists of steps of walkers (`Model/Chains.lean`); the spec says densities = `dens` of the draws; refute for given chains.
* **C114 get_chain returns parameter vectors**: State machine of the setting, invariant; refute with a change of the setting.
* **C115 posterior2csv writes one row per estimated parameter**: Lists; the transposed draws row by row.
* **C116 Without new shocks, expectations come true**: The search in terms of declared paths (`search_declared`), restart of expected paths (C15), induction over periods; refute with an oscillating model (`Examples/Ex5.lean`) whose expected path violates the bound after the spell, using C02.
* **C117 Complete vectors decide**: `Props/LastWins.lean`. Two models with different histories agree in the size of the tables and in whether there is a filter (`SameFrame`, kept by every call of `set_par` and `get_par` that does not ask for another size, also by failing ones, `ops_frame`); `finishSet_congr` shows that `set_par` with a complete vector reads nothing else. Vectors of estimated parameters: by `setMany_twice`.
* **C118 Commuting assignments**: `Props/LastWins.lean`, from the same congruence and `List.set_comm`.
* **C119 Samples in `extract`**: `Model/Extract.lean` models filtering.py:310-497 with the task list, the runner acting on the object of its process, `map` and `pool.imap` with an arbitrary schedule, and `map2arr`; what filter and smoother do is a function of the attributes and the seed (contract: `batch_filter` and `npas` seed the global generator). `Props/Extract.lean` shows that workers stay in a class (`Like`) on which `set_par` with vectors of one kind has the same effect. Contract for `grgrlib.serializer`: a wrapper that calls the method on the object of the process. If it made a separate copy for each method, `set_par` would not reach `run_filter` and the sample would be ignored.
* **C120 Parameters after `extract`**: the object is untouched with a pool; `map` (Kalman filter, debug mode, no pool) works on the object itself, and the last vector stays. Not modelled: for the other filters in reduced form the filter object is recreated.
* **C121 names mean what is declared**: `Model/Resolve` has the file as declarations and expression trees over names; the context is the list
  of entries of which the last one with a name wins (`context_eq`). The specification `Spec.rawVal` gives the value of the text with names as
  declared. A declared variable that is shadowed would not occur in the equations and is rejected by the search for leads and lags, unless
  it has the name of the variable added for a lagged shock, in which case the matrices cannot be built. Combined with C82 for the path.
  Refuted for a parameter with the name of a shock.
* **C122 malformed files**: `Spec.Defect` lists the defects; every exception before the measurement equations is a `SyntaxError` except
  for unpacking more than two sides. Refuted for two `=` and for measurement equations.
* **C123 accepted files**: need and sufficiency of the use of every name in a model equation; refuted for a shock in the constraint only.
* **C124 prep_estim works completely or not at all**: `Model/PrepEstim.prepEstim` is the sequence of all writes to `self`; the stages `storeSettings`, `makeFilter`,
  `dryRun`, `makeFns`, `makePool` return the state with the exception. Success and failure by going through the stages (`prepEstim_cases`). Refuted by
  `PrepEx` (settings and filter of a failed call stay; `pool=None`).
* **C125 the density of a draw is that of the model set to this draw**: `llikeBody` against `setPar` with the same bounds; both write the draw into vectors that agree off
  the estimated positions (`Spec.AgreeOff`), the solution has no memory of earlier attributes except the bounds, which are given. Refuted for other values of
  parameters that are not estimated, and for all parameters estimated in another order than declared.
* **C126 other methods do not change the density**: induction over a list of calls (`EstEv`); invariant: filter unchanged, functions unchanged up to the estimated entries
  of `par_fix` (`SameFns`). `C126_extract_refuted` holds in every model.
* **C127 a linear preparation does not switch off the constraint**: the bounds after `prep_estim` and after `set_par` are computed (`setPar_bounds`); invariant
  `lks = (2,0)` over a list of calls. Refuted in every model. `Props/LinearPrep.lean`: the density solves the model itself, so each evaluation with a finite value puts these bounds back (`C127_density_bounds`), also after `set_par` with explicit bounds (`C127_density_refuted`).
* **C128 mcmc and prior_sampler prepare the model if needed**: `ensure`; without stored `filter_R` the preparation fails and leaves `ndim` unset, so that every
  further attempt fails (induction over the number of attempts).
* **C129 dispatch=True works**: `runFilter` imports a function that does not exist; refuted for all models by going through `prepEstim` and `lprob`.
* **C130 measurement errors survive save_meta**: invariant over a list of calls, with `C124_success_partial` for the last one.
* **C131 small disturbances never make the constraint bind**: the rows of the tables for k=0 are linear in the state, so one size works for all horizons in the tables
  (sum of absolute values). For all periods: a power of the transition matrix is small (`small_power`, from stability of the unit vectors), a sum of absolute values over
  powers is a Lyapunov function (`lyap_step`), its level set is the region (`small_region`).
* **C132 responses return to the steady state**: after a spell the expected path is linear (C15). Impulse responses follow it under the hypotheses of C116; with lags in the constraint and a coefficient of the constrained variable other than 1, under those of C173 (`Props/TimeConsUnique.lean`, case `Ex9`). Refuted with the model
  of `Ex6` (explosive at the bound): bounds on all cells of the tables by induction, for all `l_max`, `k_max >= 2`.
* **C133 powers and semicolons**, **C134 continued lines**, **C135 list markers**, **C136 comments** (`Model/Text.lean`, `Props/Text.lean`): the replacements of parser.py:653-659 on
  lists of characters, with Python's left-to-right semantics of `str.replace` (an occurrence consumes its characters) and `re.sub`. The main lemma cuts a text before a
  character that the pattern can have at its beginning only (`replace_append`), respectively where no continuation sign is torn apart (`joinLines_append`). YAML is only
  represented by the removal of comments (`yamlView`). C134-C136 are refuted in general by texts that a user may well write (two blanks after `@`, a comment ending in `@`,
  a comment after `@`, a list without indentation), and proved otherwise.
* **C137 main shock** (`Model/Mbcs.lean`, `Props/Mbcs.lean`): the greedy elimination of `mbcs_index` with `np.delete` as `Fin.succAbove`. In every step the addition is bounded by the
  mass that disappears; summed up, additions plus twice the picked values are at most rows plus mass (`sumAdded_bound`), and in a square array the picked values are at
  least as large as the last row (`picked_ge`).
* **C87 positive bounds** (`Props/PositiveBound.lean`): expected paths of a stable model converge to zero under every spell (C132), so they cannot stay at or above a positive bound. `C87_flag_refuted` is the model of `Ex17` with bound 1: from a high state the linear path is above the bound in the `l_max + 1` periods that are tested.
* **C37 exactly** (`Props/LeadCut.lean`): what the parser does with leads of more than two periods, in all models: `Spec.cutAt` reads a symbol with date `d` in period `t + min(d, 2)`, and the parsed system has the solutions of the declared one read in this way. No condition on the leads; that matrices exist gives the condition on the dates.
* **C82 with long leads** (`Props/ModelFileCut.lean`): the same for the simulated path: `Spec.CutHoldsAt` in every period, for linear files with leads and lags of any length.
* **C194 order of observables and shocks** (`Props/Mbcs.lean`): without equal shares the largest one is found in the same row and column wherever they are listed; leaving them out gives a permutation of the rest (`perm_rest`), so the sums agree by induction. With equal shares `argmax` takes the first in memory (`C137_first_largest`) and the rest of the elimination differs (`C194_order_refuted`).
* **C195 no leads from lags** (`Props/NoLeads.lean`): no leads after parsing iff none before and every variable occurs with a date of at least -1. The names of the added shock variables must not be declared (otherwise the matrices are rejected, C36). That the added equations do not change the solutions is C37.
* **C195 no lags from leads** (`Props/NoLags.lean`): the mirror image, for equations with current shocks only.
* **C138 calibration and priors** (`Model/Assemble.lean`, `Props/Assemble.lean`): mappings of YAML as Python dictionaries (repeated keys keep their place and get the last value),
  `p0`, `prior_arg`, `prior_names` with the one exception that is caught. Yields the `Decl` of `Model/Params`, so that `WF` becomes a theorem.
* **C139 returned durations** (`Model/Pack.lean`, `Props/Pack.lean`): `map2arr`, `np.vstack` and `LK[..., i, :]` on lists of rows. Refuted for several parameter sets.
* **C140 satellites** (`Props/Satellite.lean`, example in `SatelliteEx.lean` with `Examples/Ex7.lean`): `Spec.Contains f g D' D` says that the equations of `D` follow from those of `D'`
  under the renaming `f`, `g` and that the constraint is the same; `Spec.contains_extend` shows it for every block extension. The core of a path of `D'` solves `D`
  (C01), ends on the linear solution and is therefore the path of `D` (C103). The linear solutions agree if the core is determinate (`C140_linear_of_stable`); the same argument now
  discharges the hypothesis of C104.
* **C141 the sample of gfevd** (`Model/Gfevd.lean`, `Props/Gfevd.lean`): the arrays are lists of rows, `np.random.choice` without replacement is an arbitrary function `rng` (for the seed: any two
  permutations). `C141_extract_refuted` is the missing entry `means`; `C141_pairing` reads off shock, state and parameters of draw `s*T + t`; `C141_seed` uses that the loop adds up
  contributions that depend on the draw only (`set_par` decides the solution: `Spec.Decides`, which C117 gives for complete vectors); `C141_linear_shares` uses C09. `C141_unchanged_refuted` runs the example model with
  bound -1 on a draw with bound -2.
* **C142 affine pieces** (`Props/Convex.lean`): for a given spell the five values of `check_cnst` and the new state are affine in state and shocks (`valuesAt_mix`, `xPath_mix`), so that
  the conditions of the search (`NeverBinds`, `Consistent`) are intersections of half-spaces. Example: the first example model binds for one period exactly as long as next period's `y` lies between -2 and -1 (`Ex1.binding_region`).
* **C143 tiny coefficients** (`Props/Tiny.lean`, `Examples/Ex8.lean`): refuted. `gen_sys` decides with `fast0` (tolerance 1e-8) which variables are states. A variable whose lag has only coefficients below the tolerance
  becomes a control, and `t_func` never reads lagged controls (`C143_other_variables_ignored`). `C143_tiny_lags_violate` is general; `C143_refuted` runs a model with a coefficient of half the tolerance.
* **C144 simulate over samples** (`Model/SimMany.lean`, `Props/SimMany.lean`): the heap of C17 with the arguments of `simulate`; `set_par` and the contents of the model are arbitrary, the loop is `Tools.simulate`.
  `C144_results` is an iff: the results are exactly those of the samples, by position. `C144_selection`: any selection, order or repetition of samples gives the selection of the results.
* **C145 lost samples** (same files): refuted, since `zip` ends with the shortest list (`C145_refuted`); partial: lists of equal length.
* **C146 level of the bound** (`Props/Relax.lean`): the values of the constraint along the unconstrained path (`valuesAt .. 2 j 0`) do not depend on the bound, since the expected path under a spell with `k = 0` solves the declared
  equations without it (`core_paths_of`, C103). Hence the criterion of the search for slack is monotone in the bound. `C146_low_bound`: for every simulation there is a level below which it is linear.
  `Props/LowerBound.lean` (example in `LowerBoundEx.lean`, `Examples/Ex17.lean` with the bound as a parameter) compares the two models when the constraint binds: what the higher bound adds is enough for the lower one, and what an
  equilibrium adds is the least that is enough (`C189_least`), hence the lower bound adds at most as much in every period; the order of states is then carried through transitions and simulations.
* **C147 renaming** (`Props/Rename.lean`): a renamed declaration contains the model in the sense of C140, which gives the theorems for transitions and simulations for any layouts. `C147_same_tables` transports `gen_sys` itself along a
  bijection of the variables: same matrices, same tables.
* **C148 what is solved** (`Props/ConLag.lean`, example in `ConLagEx.lean` with `Examples/Ex9.lean`): `Spec.asSolved D` is `D` with the lags of the constraint negated and its shocks multiplied by `1 - rb cvar` (C23). With the same
  uniqueness argument as C103 the expected paths are the solutions of `asSolved D`; `Spec.toWrite` is the inverse. C104, C105, C106, C140, C146 and C147 are stated for all such constraints (`LagsNotExpected D`,
  `rb cvar ≠ 1`); the declared pairs are compared as declared, since both are changed in the same way. C103 is the special case in which `asSolved D = D`.
* **C149 borders** (`Props/Edge.lean`, example in `EdgeEx.lean`): from `C148_characterisation` in both directions. If the second spell ends earlier, the path has to be on the linear solution earlier; `joins_back` shows
  this period by period from the uniqueness of the path under `(1, 0)`, whose cell is that of `(0, 0)`.
* **C150 cycles of saving and loading** (`Props/Cycles.lean`): induction over the list of cycles with the invariant `Kept` of C84; each cycle may have its own file name, cache and way of loading. The size of pickles is any
  function for which a pickled model is larger than a pickle that is in its `fdict` (`Spec.SizeOK`).
* **C151 copies of a parameter vector** (`Props/ParDict.lean`): `randn` is any array of the requested shape; the specification `Scattered` is an entry-wise equation, from which it follows when two vectors agree in an entry. `Props/Copies.lean`: the same for `best` (with `bestSet_doc`) and `post_mean`; samples are not scattered, and with `full=True` each row is the calibration with one draw.
* **C152 dictionaries of parameters** (`Model/ParDict.lean`, `Props/ParDict.lean`): rounding is any function; `lambdify` unpacks its argument, so that an array of samples is taken to be one row per parameter.
* **C153 continuity** (`Props/Continuity.lean`, `Props/ContinuityEx.lean`): in any ordered field with `δ` and `η`, without topology. The tests of the search are weak inequalities on affine functions, so a spell that fails a test fails it in a
  neighbourhood (`FailsOpenly`); nearby searches thus return spells that pass at the point itself, too. The counterexample `Examples/Ex10.lean` is `y = 1/4 y(-1) + 4/3 r + e`, `r = max(y, -1)`, in which being at the bound today and
  not being at the bound today are both consistent.
* **C154 arrays of the user and of the model** (`Model/Alias.lean`, `Props/Alias.lean`): a memory of arrays with addresses on top of the model of `get_par` and `set_par`; what is computed is `Params.getPar`, which array it is in is `returned`. Invariant over all sequences of calls: the user holds no array of the model. `get_par('mode', full=False)`, `'init'` and `'best'` return `fdict['mode_x']` and `fdict['init_value']` themselves, so that the claim is refuted for them. `self.par` is by value (`gen_sys_from_yaml` makes a list, `get_par` reads it through copies). New arrays hold the numbers of the result, and an array that is not new is the stored mode, the stored initial values or the argument (`C154_set_contents`, `C154_get_contents` in `Props/AliasContents.lean`).
* **C155 sizes and expected variables** (`Model/Book.lean`, `Props/Book.lean`): `DSGE.__init__` on the output of the parser; `list(set(a).union(b))` is any function that lists every member once. The documentation of `neq_fort` is wrong (refuted).
* **C156 printing** (`Model/Dumper.lean`, `Props/Dumper.lean`): `_dumper` on trees of dictionaries, lists, tuples, sets, equations and texts; what `str()` gives for anything else is a text. Objects that contain themselves are left out.
* **C157 dates of shocks** (`Props/Shift.lean`): at the steady state a period without shocks is the identity on the whole loop state of `irfs` (C10), so the response to delayed shocks is literally the original list after `D` copies of the initial loop state. Refuted for the default `force_init_equil` and shocks in period 0 only: line 270 tests whether some shock has a nonzero period, so the same shock one period later switches to continuing the spell.
* **C158 Lanne and Nyberg** (`Props/LanneNyberg.lean`, example `Examples/Ex11.lean` with a shock in the constraint): the documentation of `gfevd` promises their decomposition; the specification sums squared responses over the periods and averages the ratios over the histories. The code takes the last row of each response and the ratio of sums (`C158_computed`), so that the claim is refuted for horizons above one and for several draws.
* **C159 counterfactuals** (`Props/HistLin.lean`): cells without a spell are the linear solution for every `l`, so the update of each contribution is the linear step of a simulation with one shock. Samples may belong to different parameters (a family of inputs and layouts).
* **C160 least squares** (`Props/EpsLin.lean`): the four conditions of the pseudoinverse give the normal equations (residual orthogonal to the effects of the shocks) and the shortest solution; induction over the loop. The round trip needs the first condition only. `C160_same_effect`: two shocks that enter alike share the effect equally. The examples use a pseudoinverse of 2×2 matrices that is proved to meet the contract.
* **C161 one equilibrium** (`Props/OneEq.lean`, `Props/OneEqEx.lean`, `Examples/Ex12.lean`): the difference of two equilibria solves the homogeneous equations with a disturbance of the constraint equation which in each period has the opposite sign of the difference; `Spec.NoReversal` (P-matrix property, stated without matrices) excludes this. It holds in `Ex1` (proved backwards: `y` is a nonnegative multiple of its lag). It fails in `Ex12` (`y = -2/15 y(-1) + 4/3 r - 2/15 r(+1) + 4/15 e`, `r = max(y, -1)`), where the steady state has a second equilibrium; both end on the same linear solution.
* **C162 report** (`Model/Report.lean`, `Props/Report.lean`): numpy's `array_split` by its section sizes; names and values are cut alike if there are equally many. Width: `lnum * (cols - 8) > 8 n` bounds each section. The text of the header and the rounding are left out (values are texts).
* **C163 flags** (`Props/Found.lean`): an equilibrium with one spell solves the model under that spell, so it is the path of the tables (C103, the period from which it is linear is moved back with C149); the five tests are necessary conditions for it, so the search cannot end with a flag. A path that touches the bound without crossing it is found as a spell of one period. Example: the shock -4 in `Ex1`, with `k_max = 30` (flag 0) and `k_max = 1` (flag 2). `Props/FlagIff.lean`: where flag 0 means equilibrium (C193) this is exact (`C163_exact`), so flags cannot appear when tables grow (`C163_larger`).
* **C164 no variable lost** (`Model/Masked.lean`, `Props/Masked.lean`): the masks `inq`, `inp` are those of C26 and C98, the shape check is that of `Q @ gg` (gensys.py:361: `Q` has one row per equation, auxiliary variable, shock and the constraint, `gg` has `dimp + dimq` entries). Auxiliary variables and shocks have a 1 in `BB0` and always have a place, so the two numbers agree exactly if all declared variables are used. Not modelled: the RQ decomposition itself (its result has the stated shape).
* **C165 messages** (same files): `namesFrom` is the comprehension over a mask with the attribute `variables`; the message about missing variables runs over all of y-space, but only declared variables can be missing. Refuted for dictionaries: `DSGE_DUMMY` (gensys.py:45) has no attribute `variables`.
* **C166 info** (`Model/Info.lean`, `Props/Info.lean`): `get_chain` and `get_tune` are those of C113-C115; `load_estim` stays an oracle. Two refutations: a model without chain (every model that was just read) raises `NameError`; a model without the attribute `bptrans` is prepared for estimation by asking for information. Assumed of the library `emcee`: a sampler without steps raises `AttributeError`.
* **C167 verbosity** (`Model/VerbLike.lean`, `Props/VerbLike.lean`): `llike` and `lprob` of C44/C45 with the report that `verbose > 1` adds: `get_par(full=False, asdict=True)` (C152) and `box_check` (C35). `gen_sys` sets `self.par` before anything can fail, so the report always finds complete parameters. Not modelled: the texts themselves.
* **C168 growth** (`Props/Growth.lean`): the transition is one of finitely many affine maps (one per cell of the tables), so one factor serves for all states; no oracle contract beyond those of C05 is used. Over an infinite horizon nothing of the kind holds (C132).
* **C169 one prior** (`Model/PriorHist.lean`, `Props/PriorHist.lean`): the four places that keep information on the prior, and who writes them when. `emcwrap.get_prior` is any function of the contents. Refuted: `prior_sampler` prefers `fdict["frozen_prior"]` to `self.prior`; `fdict["model_dump"]` is pickled by `read`, before any change. Not modelled: changes that add or remove parameters (`prior_arg` is fixed by `parse`).
* **C170 NaN** (`Model/Nan.lean`, `Props/Nan.lean`): the transition with `none` for NaN; on numbers it is proved to be the transition of the other claims (`C170_numbers`). Refuted for every solved model: with NaN all tests of `find_lk` for `(0,1)` pass (they `continue` on true comparisons only), so the search reports one binding period and no error. Infinities and NaN in the tables are not modelled.
* **C171 solvable** (`Lemmas/Solvable.lean`, `Lemmas/FromReduced.lean`, `Props/Solvable.lean`, `Examples/Ex13.lean`): success of `gen_sys` as an equivalence. The spec (`Spec.SpellSolution`) is a path of the declared variables under a spell that follows the linear solution `(omg, lam)` afterwards; the declared model is `Spec.asSolved` (see C148). Proof: the matrices inverted in `preprocess` are singular exactly if some spell has no or several paths; reduced and declared paths correspond one to one. With `k_max = 0` the code still inverts `W22` (engine.py:63-67), so a purely linear use needs a determinate binding regime. Over the reals the contract of `scipy.linalg.rq` can be met for every model (`Lemmas/RQExists.lean`, `C171_contract_satisfiable`), so the hypothesis on the decomposition excludes none.
* **C172 rounding** (`Props/Rounding.lean`): the model computes exactly; this says what is left of C02, C03 and C05 if it does not. `Spec.CloseTables` bounds the entries of two tables, nothing else is known about the second. The search sees numbers within `eta` of the exact ones (`step_close`); its outcome depends only on the signs of the differences to `x_bar` (`findLk_signs`). The tables may depend on the state, so an error in a product is covered as an error in the row of the table. The size of the error on a given machine is not modelled.
* **C173 search with lags** (`Props/FoundLag.lean`, `Props/FoundLagEx.lean`, `Props/RoundingLag.lean`): C116, C161, C163 and the last part of C172 assume a constraint without lags and without the constrained variable on its right hand side. Here are the same statements about `Spec.asSolved D` for all constraints (`pathValue_rule`: what the search reads in period s is the value that satisfies the constraint equation of the solved model in period s). `C173_flag_iff` says exactly when no error is reported. The example is Ex9 (lag, shock and own coefficient in the constraint), with a spell of two periods, an error with `k_max = 1`, and no reversal of announced disturbances. `C173_expectations_come_true_partial` and `C173_reported_partial` keep the extra hypotheses of C116 and C161.
* **C174 as announced** (`Props/TimeConsUnique.lean`): `Spec.ReportsEquilibrium` says that the path expected under the reported spell satisfies the constraint in all periods, also in those that are not tested. The rest of an equilibrium is an equilibrium (`equilibrium_later`), and there is only one (C173), so that the first state of the newly reported path is the next one of the old path; induction over the periods of `irfs`. The example computes the search along the whole path (`Ex9.deep_run`, `Ex9.deep_reports`). `Props/AsAnnounced.lean` removes the hypotheses on later periods: where flag 0 means an equilibrium (C193), what is left of the spell is an equilibrium inside the tables, so the search finds one there (C173), and the flags stay 0; case `Ex17`. The same file has the exact condition of C116: the first period is always tested, so the realised state of a period without an error satisfies the constraint equation (`realised_constraint`); a response that follows the announced path therefore shows that this path is an equilibrium (`C116_only_if`, `C116_exact`).
* **C18 under uniqueness** (`Props/ForceUnique.lean`): `Spec.ContinuesWell` says that the continued spell is an equilibrium from the present state. It is kept by both kinds of periods: without a shock the continued path and the newly found one are both equilibria from the same state, hence equal (C174); with a shock the search starts a new one. Initially the spell `(0,0)` is continued, so the initial state must be one from which the constraint never binds, unless there is a shock in the first period (otherwise `C67_irfs_respect_bound_refuted`). C67, C108 and C157 follow for the default arguments (`C67_unique`, `C108_unique`, `C157_unique`).
* **C175 multiplicity report** (`Props/MultFlag.lean`, `Props/MultFlagEx.lean`, `Examples/Ex14.lean`): `mult` of `irfStep` is `supermultflag`. `Spec.SpellsDiffer` states the comparison of a period on the arguments and results of `t_func`, `Spec.SearchFailed` the failures that can be reported. The step from spells to equilibria uses that the rest of an equilibrium is one (C174) and that a path off the bound has only one spell (`spells_of_path`). Ex14 is a model in which, one period after a shock, the search finds an equilibrium without binding periods while the announced one goes on. The code violates the claim in three ways, each with a witness: before the first shock the continued spell is `(0,0)` whether or not it is an equilibrium; the search stops at the first equilibrium; and the flag of the search in a period without a shock is overwritten (tools.py:273, 311). The printed messages are not modelled.
* **C175 under uniqueness** (`Props/SilentUnique.lean`): the invariant of C18 (`forced_invariant`) says that the spell `irfs` continues is an equilibrium; the path found anew is one, too, so the paths are equal (C174), and off the bound a path determines its spell (`spells_of_path`). `Spec.OffTheEdge` is that condition; at the bound two spells give the same path, and `C175_edge_refuted` shows the false alarm: the test for `(0,0)` is strict (engine.py:277), that for `(0,1)` is not.
* **C12, C65 in terms of the declared model** (`Props/TrajDeclared.lean`): the values in `traj` and `k_map` are those of the constraint equation (`Spec.ruleAt`) along the path expected under the spell that is looked up. `traj` looks up `k-1`; by C192 the last period of a reported spell with `k >= 2` really binds, so the two paths differ.
* **C176 accepted files** (`Lemmas/Accept.lean`, `Props/Accept.lean`, `Props/AcceptFile.lean`): the condition `Spec.Accepted` speaks only of the lists of the file and of the pairs (name, date) in the expressions (`Spec.occ`). `Spec.Added` lists the names of the variables that the parser adds; depths are absolute values there as in the code (parser.py takes `abs(min(...))`), so a variable that only occurs two periods ahead also gets a lag variable. The proof goes through all stages: name lookup (C121), substitution of lagged shocks, splitting of long lags, square system, constraint, measurement equations (C21). The remark in parser.py:231-241 about variables that are defined twice describes a case that is accepted only when there are equations without variables and shocks at the end (`AcceptEx.twice`). Not modelled, as before: sympy's simplification (a symbol that cancels counts as occurring), the tokeniser, files without a `constraint` section (NotImplementedError in gensys.py).
* **C177 global bound** (`Lemmas/Cover.lean`, `Props/GlobalLip.lean`, `Props/GlobalLipEx.lean`): `Spec.Regular` is flag 0 and agreement of the spells that pass (`Spec.Determined` of C153). Along a segment every test of the search is a linear inequality in the position, so each spell passes on an interval; finitely many intervals cover the segment, and `chain_spans` goes from one to the next. The constant is the sum of the sizes of all table cells times the number of states and shocks. `C177_unique_determined` links regularity to the uniqueness condition of C173. `Props/StaysRegular.lean` replaces regularity by the conditions of C173 and C193 on the model: every spell that passes, also with equality, is then an equilibrium (`passes_is_equilibrium`). With it, an error at a state means that no spell passes, which persists nearby (`C163_errors_open`). Exact arithmetic, as everywhere.
* **C178 names** (`Props/Substitute.lean`, example in `SubstituteEx.lean` with `Examples/Ex15.lean`): `Spec.WithoutNames f G D' D` says that the equations of `D'` imply the definitions `G`, and that the equations and the constraint of `D` are those of `D'` where `G` holds. A path of `D'` from a past with `G` obeys `G` in all periods and solves `D`; by the uniqueness of C148 it is the path of `D`. What the search reads agrees, so the spells agree; simulations follow by induction, where `Spec.SamePast` carries `G` along. `Declared.withDefs` and `Declared.writtenOut` are the two ways of writing the same file. In the example the name is lagged and is in the constraint: `w` is the state of `Ex15`, `y` that of `Ex1`.
* **C179 imposed durations** (`Model/Imposed.lean`, `Props/Imposed.lean`): `tFuncK` returns the integers that were imposed, as the code does (`Tools.Step` holds the cell of the tables, which is the same for numbers that are not negative; `irfs` is modelled with the cell, so its reports for negative entries of `set_k` are simplified). `C179_outcome` goes through all pairs of integers; the refutation is `set_k=(0,-2)`, which gives a spell of `k_max - 1` periods.
* **Exact conditions** (`Props/Outcomes.lean`, `Props/HistExact.lean`): all outcomes of `set_par(.., npar=)` and of `get_par` with arrays (C32, C151), the reasons why `load_data` raises (C61), all outcomes of `k_max = 0` (C05). C57: contributions that add up keep adding up over one period iff there is no spell, or the linear part of the constraint's value is not zero, or the spell imposed at the steady state does nothing (`Spec.SpellIdle`); induction over the periods.
* **More exact conditions** (`Props/ExactMore.lean`): C13 (all later answers use the tables of the first query), C23, C24 (an expectation is lost iff the constraint has the lag of the variable), C26, C29 (a failed `set_par(name, x)` always leaves `x`), C33, C34 (named sets always reset to the calibration), C35 (the default compares with the first declared parameters), C66, C71, C72, C73, C110, C145.
* **When force_init_equil matters** (`Props/ForceExact.lean`; C18, C67, C108, C157): the counterexamples of these properties have one reason, a spell that is continued although the search would give another. `C67_only_if` shows that a state below the bound occurs only in such a period; with `C175_reported_iff` and `C175_silent` the properties hold if `irfs` does not report multiplicities. `C67_silent_met` is a response with a binding constraint for which this is so.
* **C180 get_cov** (`Model/GetCov.lean`, `Props/GetCov.lean`): a call of `get_par('cov_mat', npar)`, which solves the model for the parameters in question (`genSysYaml` of C29/C90, all writes in order). `Spec.ParsMeant` says which parameters an argument stands for. For the scale the solver's covariance is a matrix and the filter's is its square (filtering.py:128); C41 shows that accepted models have diagonal matrices.
* **C181 existence** (`Lemmas/Lcp.lean`, `Lemmas/Disturbed.lean`, `Props/Existence.lean`, `Props/ExistenceEx.lean`): `Lcp` proves that a complementarity problem with a matrix that reverses no sign has exactly one solution, over every ordered field, by induction over the components whose regime is left open (the solutions with either regime in the next component cannot both be infeasible). `Disturbed` are paths of the reduced slack system with announced disturbances of the row of the constraint; they exist for all disturbances by a backward recursion, and in terms of the declared variables the disturbance is the difference between the constrained variable and the value that satisfies its equation. The condition `NoReversalOf` of C173 then says that the response of the constrained variable reverses no sign, and the equilibrium up to a horizon (`Spec.EquilibriumUpTo`, stated with the declared equations) is the solution of the complementarity problem. Fixing the regimes instead gives one path for every spell, hence tables of every size by C171.
* **C182 what a parameter acts on** (`Props/Unused.lean`): the names of parameters of a parsed expression are among the names in its text; substitutions keep them, derivatives add none, and the equations added for leads and lags have none. Hence matrices, constraint row and measurement equations are functions of the values of the names in their own texts (`C182_named`), and a file read at two parameter vectors that agree on the names in the file gives the same outcome (`C182_unused`). `withObs` exchanges the measurement equations of an input of `gen_sys`; masks, reduced system and tables do not look at them (`C182_observables`), nor do `t_func`, `irfs` and `simulate` (`C182_states`).
* **C182, covariances** (`Props/CovFree.lean`): `Spec.SameButQ` relates two states of a model that differ in the value of `filter.Q` only. `set_par`, with any arguments, keeps the relation and returns or raises the same if the covariance function of the model is exchanged (`C182_covariances`); `get_par("cov_mat")` is the only call that shows the covariances, and `set_par` ends in an error on it.
* **C183 exogenous processes** (`Props/Exogenous.lean`): `Spec.HasProcess` says that equations `e` of the declared model are the process `P` in the variables `v` and shocks `u`, `Spec.Process.Path` is a path of `P` alone. Every transition, with whatever spell, is the first period of an expected path under a spell inside the tables (`path_of_transition`; negative indices wrap, C14 covers the spell that is found), and expected paths satisfy the declared equations (C148). The state carries the values of the variables over to the next period (`expected_lagVal`), so the law holds along simulations and impulse responses. `C183_one_path` and `C183_same_process` compare two models.
* **C184 what the past acts through** (`Props/Sufficient.lean`): `Spec.SameInput` compares `C x(-1) + D e` and the same sum for the constraint. A path that solves the model for one input solves it for the other; with determinacy the linear solutions agree in the first period, so by the characterisation of C148 the expected paths under every spell are the same (`C184_same_path`). The values that the search reads are then the same, hence spell, flag and state. `C184_simulation` is a special case. (Shocks that enter nowhere are another matter: they are shifted among the positions, see C98.)
* **C184, the converse** (`Props/Sufficient.lean`): two transitions to the same state with the same durations have the same expected path from then on, so the equations and, if slack, the constraint of the first period give the contributions (`C184_recovered`). Determinacy is not needed. With injective loadings the shocks of a simulation are determined by its path (`C184_shocks_identified`).
* **C184, while the constraint binds** (`Props/Sufficient.lean`): under a spell that starts at once the first period has no slack constraint, and the linear solution is joined later, so contributions to the constraint (policy shocks, lags in the rule) drop out (`C184_bound_path`, `C184_bound_transition`).
* **C185 zero shares** (`Props/ZeroShare.lean`, `Examples/Ex16.lean`): the sums of squared responses change only for shocks that move the variable (`addDraws_still`), so shares are positive exactly then (`C185_positive_iff`). Responses with and without a shock that does not enter a determined process have, by C183, the same innovations and hence the same path (`C185_not_moved`). `Spec.Outside` allows a model of its own for every draw. The new example has two states and two shocks.
* **C186 direction** (`Props/Direction.lean`): the difference of two paths of C148 solves the homogeneous equations and joins the linear solution; the constraint equation is missed by `x_bar` minus the rule value in the periods of the spell (`C186_difference`). `Spec.Lowers`/`Spec.Raises` are conditions on responses of the linear model only. `passes_of_flag` gives what a transition with flag 0 has tested for the spell that it returns; for `k ≤ 2` that is every binding period. Impulse responses follow the path of C174. Met by the example with two states: announced increases of `r` lower `w` and raise `r` in all periods, and after the shock `-3` `w` is 1 instead of 3/2. If disturbances do not reverse (C161), responses to announcements exist, are unique and add up, so that it suffices to look at announcements for one period (`C186_lowers_iff`, `C186_raises_iff` in `Props/Direction2.lean`).
* **C187 below the linear path** (`Props/Below.lean`): one period by `C186_transition` and the order that the linear model keeps (`ordered_step`), then induction over the shocks of `simulate` and over the periods of `irfs`. In the example with two states every reported spell binds genuinely (`Ex16.longGenuine`). `C187_asymmetry` adds the antisymmetry of linear responses (C09).
* **C188 comparison of two constrained paths** (`Props/Compare.lean`, example `Examples/Ex17.lean`, `Props/CompareEx.lean`): the difference between an equilibrium and the linear path is the response to what the constraint adds (`lift_response`). The part by which the better path is lifted more has a response against its own direction in all periods, so that it is zero (`C188_harder`, the argument for M-matrices); the order follows with `Lowers` and `Raises`. The condition on announcements is about single announcements (`C188_elsewhere_iff`). In the example `y = y(-1) - 4/3 r + e`, `r = max(3/4 y, -1)` announcements lower `r` in later periods, everything that is reported with flag 0 is an equilibrium (`Ex17.flagMeansEquilibrium`), and the shocks `-5` and `-3` lead to spells of two periods and one.
* **C189 averages** (`Props/Averages.lean`, example in `Props/AveragesEx.lean`): `C189_least` is the statement about least elements for M-matrices (as `C188_harder`, with any announced increases in place of the other equilibrium); convexity follows since the average of announced increases keeps the average at or above the bound (`C189_lift`), the order with `Lowers` and `Raises` (`C189_order`), simulations by induction: the result from the average is at least as good as the average of the results, and the next transition keeps the order (C188). In the example the shocks `-5` and `3` give `y = -11/3` and `3/2`, their average `-1` gives `-1/2`. `Props/Larger.lean`: larger shocks are the case of a sample of two members, the second of which stays in the steady state (C10).
* **C190 imposed spells** (`Props/Guidance.lean`): the paths under an imposed spell and in equilibrium differ from the linear path by responses to announcements (`C186_difference`, `lift_response`), so their difference is the response to the difference. Where it is positive the imposed spell is at the bound and the equilibrium not below, so that the response is against its own direction; by the argument for M-matrices (`announced_nonpos`) it is nowhere positive. Impulse responses with `set_k` follow the expected path of the imposed spell (`irfs_imposed_path`, from C16) and those without follow the path expected at impact (C174). In the example the shock `-5` leads to a spell of two periods and `y = -11/3, -7/3, -7/6, -7/12`; with `set_k=4` it is `-11/3, -7/3, -1, 1/3`. In the model of `Ex10`, where announcements reverse, an imposed spell is worse than the steady state (`C190_reversal_refuted`).
* **C191 criterion for uniqueness** (`Lemmas/MMatrix.lean`, `Props/NoReversal.lean`): a matrix without positive entries off the diagonal reverses no sign exactly if it maps a positive vector to a positive one (`Lcp.noSignReversed_of_dominated` by the component with the largest ratio, `Lcp.dominated_of_noSignReversed` by solving `M u = 1`). Responses add up without any condition (`response_comb`), and without announcements nothing happens (`response_to_zero`, from `joins_back_many`, which needs `l_max >= 1`), so that every response is the combination of those to single announcements. In the example (Ex17) the response of `r` is `1/2, -1/4, -1/8, ...`.
* **C192 durations** (`Props/Durations.lean`, `Props/DurationsBound.lean`, example `Props/DurationsEx.lean`): the reported spell is the first that passes the tests (`reported_first`), and periods in which the rule gives exactly the bound can be added or left out at its edges (`equilibrium_respell`, from C149); so that the last period of a reported spell of at least two periods binds strictly (`C192_last_binds`). What binds strictly on the better path binds strictly on the worse one (C188), which gives the end; for the beginning the worse path is at the bound from the beginning of the better spell on (`C192_constrained`), and an earlier spell with the same path would have been found first. For a lower bound the order of what the constraint adds comes from C146. In the example (Ex17) the shocks `-10`, `-6`, `-5` give six, three and two periods, and the bound `-2` makes two of six.
* **C193 untested periods** (`Props/Tested.lean`): `bruite_wrapper` tests a spell in the periods `0`, `l-1`, `l`, `l+k-1` and `l+k`, `find_lk` the path without a spell in its first `l_max + 1` periods. `Spec.Untested` lists the other periods; an expected path with flag 0 is an equilibrium exactly if the rule is on the right side of the bound there (`C193_exact`, from C148 and `reported_passes`). After the spell the path is a linear path without shocks (`C15_restart`), so `Spec.LinearStaysAbove` is enough for spells with `l, k ≤ 2` (`C193_short_partial`, `C193_small_tables`); `Spec.StaysAbove` is enough for all of them (`C193_stays_above`, met by Ex17), and need only be checked between the first two periods of each spell (`C193_first_step`, `C193_checked`). In the oscillating model Ex5 the spell `(1,1)` is reported with flag 0 and the bound is violated in period 3, which is not tested (`C193_refuted`).
* **Exact conditions, second set** (`Props/PoolExact.lean`, `SampleExact.lean`, `MiscExact.lean`, `SetupExact.lean`, `TextExact.lean`, `ChainExact.lean`, `DictExact.lean`, `InfoExact.lean`):
  for refuted claims the partial theorem is only a sufficient condition; these files say when exactly the claim holds, or give the whole outcome: C43 (caches are
  transparent iff results for equal keys are equal), C47/C48 (`mcmc` completes; which calls never reach the sampler), C49/C100/C101 (pool and debug mode), C51, C55, C59,
  C60, C64, C65, C69, C77, C79, C86 (two calls return the same object iff ...), C91, C92, C93, C95, C97, C99, C102, C111, C113, C114, C120, C128, C134, C136, C166.
* **Exact conditions, third set** (`Props/Exact3.lean`): a solved model can be simulated exactly if it has a state (`C88_exact`); `verbose=2` fails for a model from a dictionary exactly if there is a name to print (`C165_dict_exact`).
* **Exact conditions, fourth set** (`Props/Exact4.lean`): `C162_width_exact` gives the widths of terminals into which the report fits; `C76_start_exact` gives the default starting values (one vector with documented values) or the error, for every prepared model.
