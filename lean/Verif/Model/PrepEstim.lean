import Verif.Model.Create
import Verif.Model.Mcmc

/-!
# `prep_estim` as a whole (pydsge/estimation.py:56-236), and what other methods do to its results

Put together from the parts modelled before: the settings (`Mcmc.prep`), `set_par` (`Params.setPar`), `create_filter` (`Create.createFilter`),
the density (`Estim.lprob`), the pool (`Mcmc.createPool`). All writes to `self` are in the order of the code, so that it is visible what a
failure leaves behind.

Not modelled: messages; `self.Z`, `self.ll`; the attributes of the filter other than its kind, `R`, `Q` (in `Attrs.filterQ`), `init_cov` and the
additional arguments it was made with. `batch_filter` etc. are a parameter (`Base.run`).
`Attrs.filterQ` is the covariance of the shocks that `filter.Q` was set to last; a run of the Kalman filter replaces `filter.Q` by the covariance of
the states that belongs to it (filtering.py:184-189, see C51), which is not shown here. It is set anew before every evaluation of the density.
-/

set_option autoImplicit false

namespace Pydsge.PrepEstim

open Pydsge.Params Pydsge.Estim Pydsge.Mcmc

variable {K PP VV HX LS TT QQ RS RR CC : Type}

/-- The attribute `self.filter`. -/
structure Flt (RR CC : Type) where
  kind : Create.Kind
  R : Option RR
  initCov : Option CC
  fargs : List (String × String)
  deriving DecidableEq

/-- Results of `emcwrap.get_prior` that are used: density, transformation, initial values. -/
structure PriorFns (K : Type) where
  lprior : List K → XNum K
  bptrans : List K → List K
  init : List (Option K)

/-- The model and the libraries. -/
structure Base (K PP VV HX LS TT QQ RS RR CC : Type) where
  S : Solver K PP VV HX LS TT QQ
  D : Decl K
  dr : Draws K
  lib : Create.Lib PP QQ
  cpus : Nat
  /-- `np.random.seed(n)` -/
  seedState : Int → RS
  /-- `np.random.seed(None)` -/
  entropy : RS
  /-- `get_prior(self.prior)` -/
  getPrior : Except PyErr (PriorFns K)
  /-- the likelihood part of `run_filter` for a filter that exists (filtering.py:151-295), without `dispatch` -/
  run : Flt RR CC → Attrs K PP VV HX LS TT QQ → RS → RS × Except PyErr (XNum K)

/-- The functions `lprob` and `llike` with the local variables of `prep_estim` that they keep. -/
structure Fns (K : Type) where
  lMax : Int
  kMax : Int
  seed : Int
  transform : Bool
  dispatch : Bool
  prior : PriorFns K
  /-- the array `par_fix`, changed by each evaluation -/
  parFix : List K

/-- `self`. -/
structure Est (K PP VV HX LS TT QQ RS RR CC : Type) where
  ob : Obj K PP VV HX LS TT QQ
  /-- data and dimensions; its entries `ppar` and `filter` are not used -/
  dims : Create.Self PP QQ RR
  filter : Option (Flt RR CC)
  /-- entries of `fdict` -/
  fd : Settings
  /-- `fdict["filter_R"]` -/
  filterR : Option RR
  pool : PoolSt
  rng : RS
  fns : Option (Fns K)

/-- Arguments of `prep_estim`; `set` has those that are stored. -/
structure Args where
  set : PrepArgs
  loadR : Bool
  dispatch : Bool
  ncores : Option Nat
  dryRun : Bool
  debug : Bool
  /-- `reduced_form` (default `True`, l.81-82) -/
  reduced : Bool
  fargs : List (String × String)

/-- `prep_estim()`. -/
def Args.default : Args := ⟨.default, false, false, none, true, false, true, []⟩

section
variable [Field K] [LinearOrder K]

/-- filtering.py:60-133 on this state: makes the filter, with `Q`. Nothing changes in case of an error. -/
def newFilter (B : Base K PP VV HX LS TT QQ RS RR CC) (s : Est K PP VV HX LS TT QQ RS RR CC) (a : Create.Args RR) :
    Est K PP VV HX LS TT QQ RS RR CC × Option PyErr :=
  match Create.createFilter { B.lib with cov := B.S.cov } { s.dims with ppar := s.ob.a.ppar } a with
  | (_, some e) => (s, some e)
  | (d, none) =>
    match d.filter with
    | none => (s, some .attributeError) -- not reachable
    | some f => ({ s with filter := some ⟨f.kind, f.R, none, a.fargs⟩,
                          ob := { s.ob with a := { s.ob.a with filterQ := some f.Q } } }, none)

/-- estimation.py:99-104. A negative `N` (which the filter does not accept) is not distinguished from 0. -/
def filterArgs (f : FilterType) (reduced : Bool) (fargs : List (String × String)) : Create.Args RR :=
  match f with
  | .kalman => Create.filterCall .yes 0 reduced fargs
  | .inversion => Create.filterCall .inversion 0 reduced fargs
  | .ensemble N => Create.filterCall .no N.toNat reduced fargs

/-- filtering.py:136-137, 205-206 and 292-295: `get_ll` with the current filter. With `dispatch` the ensemble filter imports a function that does not exist;
the Kalman filter does not look at `dispatch`. -/
def runFilter (B : Base K PP VV HX LS TT QQ RS RR CC) (flt : Option (Flt RR CC)) (dispatch : Bool) (a : Attrs K PP VV HX LS TT QQ) (r : RS) :
    RS × Except PyErr (XNum K) :=
  match flt with
  | none => (r, .error .attributeError)
  | some f =>
    match f.kind, dispatch with
    | .ensemble _ _ _ _, true => (r, .error .importError)
    | _, _ => B.run f a r

/-- The density as it is evaluated: `lMax`, `kMax`, `seed` etc. are those of the time of `prep_estim`, `self.filter` is the current one. -/
def setup (B : Base K PP VV HX LS TT QQ RS RR CC) (flt : Option (Flt RR CC)) (c : Fns K) : Setup K PP VV HX LS TT QQ RS where
  S := B.S
  D := B.D
  arg := match B.D.prior with
    | some p => p.arg
    | none => []
  lMax := c.lMax
  kMax := c.kMax
  sq := B.lib.sq
  seedState := B.seedState c.seed
  filter := runFilter B flt c.dispatch
  lprior := c.prior.lprior
  bptrans := c.prior.bptrans
  transform := c.transform

/-- `self.lprob(par, temp=, use_prior_transform=)`. -/
def lprobCall (B : Base K PP VV HX LS TT QQ RS RR CC) (s : Est K PP VV HX LS TT QQ RS RR CC) (x : Call K) :
    Est K PP VV HX LS TT QQ RS RR CC × Except PyErr (XNum K) :=
  match s.fns with
  | none => (s, .error .attributeError)
  | some c =>
    match lprob (setup B s.filter c) ⟨s.rng, s.ob.a, c.parFix⟩ x.par x.temp x.trans with
    | (w, res) => ({ s with rng := w.rng, ob := { s.ob with a := w.a }, fns := some { c with parFix := w.parFix } }, res)

/-- estimation.py:59-95: the generator, the settings, `debug`. -/
def storeSettings (B : Base K PP VV HX LS TT QQ RS RR CC) (s : Est K PP VV HX LS TT QQ RS RR CC) (x : Args) : Est K PP VV HX LS TT QQ RS RR CC :=
  { s with
    rng := match x.set.seed with
      | some n => B.seedState n
      | none => B.entropy
    fd := (prep x.set s.fd).1
    pool := { s.pool with debug := s.pool.debug || x.debug } }

/-- estimation.py:106-111: `filter.R`. -/
def loadR (s : Est K PP VV HX LS TT QQ RS RR CC) (load : Bool) : Est K PP VV HX LS TT QQ RS RR CC × Option PyErr :=
  match s.filterR with
  | some r => ({ s with filter := s.filter.map fun f => { f with R := some r } }, none)
  | none => if load then (s, some .attributeError) else (s, none)

/-- estimation.py:97-111: parameters, filter, `filter.R`. -/
def makeFilter (B : Base K PP VV HX LS TT QQ RS RR CC) (s : Est K PP VV HX LS TT QQ RS RR CC) (q : Prepared) (x : Args) :
    Est K PP VV HX LS TT QQ RS RR CC × Option PyErr :=
  match setPar B.S B.D B.dr ⟨some q.lMax, some q.kMax, false⟩ B.lib.sq s.ob (.str "prior_mean") none with
  | (ob, .error e) => ({ s with ob := ob }, some e)
  | (ob, .ok _) =>
    match newFilter B { s with ob := ob } (filterArgs q.filter x.reduced x.fargs) with
    | (s, some e) => (s, some e)
    | (s, none) => loadR s x.loadR

/-- estimation.py:113-119: the dry run. -/
def dryRun (B : Base K PP VV HX LS TT QQ RS RR CC) (s : Est K PP VV HX LS TT QQ RS RR CC) (x : Args) :
    Est K PP VV HX LS TT QQ RS RR CC × Option PyErr :=
  if x.dryRun then
    match runFilter B s.filter x.dispatch s.ob.a s.rng with
    | (r, .error e) => ({ s with rng := r }, some e)
    | (r, .ok .nan) => ({ s with rng := r }, some .valueError) -- NaN becomes minus infinity
    | (r, .ok ll) => if ll.isInf then ({ s with rng := r }, some .valueError) else ({ s with rng := r }, none)
  else (s, none)

/-- estimation.py:128-229: the prior and the functions. -/
def makeFns (B : Base K PP VV HX LS TT QQ RS RR CC) (s : Est K PP VV HX LS TT QQ RS RR CC) (q : Prepared) (x : Args) :
    Est K PP VV HX LS TT QQ RS RR CC × Option PyErr :=
  match B.D.prior with
  | none => (s, some .attributeError)
  | some p =>
    let s := { s with ob := { s.ob with ndim := some p.names.length } }
    match B.getPrior with
    | .error e => (s, some e)
    | .ok f => ({ s with ob := { s.ob with initValue := some f.init },
                         fns := some ⟨q.lMax, q.kMax, q.seed, q.transform, x.dispatch, f, B.D.parFix⟩ }, none)

/-- estimation.py:231-234: the pool. -/
def makePool (B : Base K PP VV HX LS TT QQ RS RR CC) (s : Est K PP VV HX LS TT QQ RS RR CC) (x : Args) :
    Est K PP VV HX LS TT QQ RS RR CC × Option PyErr :=
  if !x.debug && (match x.ncores with | none => true | some n => n != 0) then
    match createPool B.cpus x.ncores s.pool.pool with
    | (p, e) => ({ s with pool := { s.pool with pool := p } }, e)
  else ({ s with pool := { s.pool with pool := .none } }, none)

/-- Statements one after the other, until one raises. -/
def andThen {σ : Type} (r : σ × Option PyErr) (f : σ → σ × Option PyErr) : σ × Option PyErr :=
  match r with
  | (s, some e) => (s, some e)
  | (s, none) => f s

/-- estimation.py:56-236 `prep_estim`. -/
def prepEstim (B : Base K PP VV HX LS TT QQ RS RR CC) (s : Est K PP VV HX LS TT QQ RS RR CC) (x : Args) :
    Est K PP VV HX LS TT QQ RS RR CC × Option PyErr :=
  let q := (prep x.set s.fd).2
  andThen (makeFilter B (storeSettings B s x) q x) fun s =>
    andThen (dryRun B s x) fun s =>
      andThen (makeFns B s q x) fun s =>
        makePool B s x

/-! ## Other methods that touch these attributes -/

/-- mcmc.py:61-64, 88 and mpile.py:65-66, 85: `prep_estim(load_R=True)` unless there is an attribute `ndim`, then `self.lprob` is looked up. -/
def ensure (B : Base K PP VV HX LS TT QQ RS RR CC) (s : Est K PP VV HX LS TT QQ RS RR CC) : Est K PP VV HX LS TT QQ RS RR CC × Option PyErr :=
  andThen (match s.ob.ndim with
    | none => prepEstim B s { Args.default with loadR := true }
    | some _ => (s, none)) fun s =>
      match s.fns with
      | none => (s, some .attributeError)
      | some _ => (s, none)

/-- filtering.py:370-388: what `extract` does to the filter before it starts. -/
def extractFilter (B : Base K PP VV HX LS TT QQ RS RR CC) (s : Est K PP VV HX LS TT QQ RS RR CC) : Est K PP VV HX LS TT QQ RS RR CC × Option PyErr :=
  match s.filter with
  | none => (s, some .attributeError)
  | some f =>
    match f.kind with
    | .kalman _ _ => (s, none)
    | .ensemble N _ _ reduced => if reduced then newFilter B s ⟨f.R, some N, none, false, []⟩ else (s, none)

/-- filtering.py:166-167 (`run_filter(init_cov=)`), also as called by `extract` (l.419). -/
def setInitCov (s : Est K PP VV HX LS TT QQ RS RR CC) (c : Option CC) : Est K PP VV HX LS TT QQ RS RR CC :=
  match c with
  | none => s
  | some c => { s with filter := s.filter.map fun f => { f with initCov := some c } }

/-- clsmethods.py:135-140, as far as it matters here: `save_meta` stores `filter.R` (a filter without `R` set has the default of the library, which is
stored as well: `dflt`). -/
def saveMeta (s : Est K PP VV HX LS TT QQ RS RR CC) (dflt : RR) : Est K PP VV HX LS TT QQ RS RR CC :=
  match s.filter with
  | none => s
  | some f => { s with filterR := some (f.R.getD dflt) }

/-- mpile.py:277-359: `set_par` on this state. -/
def setParE (B : Base K PP VV HX LS TT QQ RS RR CC) (s : Est K PP VV HX LS TT QQ RS RR CC) (g : GenArgs) (dummy : Dummy K) (x : Option K) :
    Est K PP VV HX LS TT QQ RS RR CC × Except PyErr (ParVal K QQ) :=
  match setPar B.S B.D B.dr g B.lib.sq s.ob dummy x with
  | (ob, r) => ({ s with ob := ob }, r)

end
end Pydsge.PrepEstim
