import Verif.Model.Params
import Mathlib.Data.Matrix.Basic
import Mathlib.Data.Matrix.Diagonal

/-!
# Making filters (pydsge/filtering.py:14-133), the start of `prep_estim` (pydsge/estimation.py:97-104)

The filters themselves belong to other packages: a constructor either raises or returns. `pydsge/pfilter.py` does not exist.
-/

set_option autoImplicit false

namespace Pydsge.Create

open Matrix Pydsge.Params

/-! ## `create_obs_cov` (filtering.py:14-20) -/

section ObsCov
variable {τ o K : Type} [Fintype τ] [DecidableEq o] [Field K]

/-- The mean of a column. -/
def mean (Z : Matrix τ o K) (j : o) : K := (∑ t, Z t j) / (Fintype.card τ : K)

/-- `np.var(Z, axis=0)`. -/
def var (Z : Matrix τ o K) (j : o) : K := (∑ t, (Z t j - mean Z j) ^ 2) / (Fintype.card τ : K)

/-- filtering.py:14-20: `np.diagflat(np.var(Z, axis=0) * scale_obs ** 2)`. -/
def obsCov (Z : Matrix τ o K) (scale : K) : Matrix o o K := Matrix.diagonal fun j => var Z j * scale ^ 2

end ObsCov

/-! ## `create_filter` (filtering.py:60-133) -/

/-- The kinds of filters. -/
inductive Kind
  /-- `KalmanFilter(dim_x, dim_z)` -/
  | kalman (dimx dimz : Nat)
  /-- `TEnKF(N, dim_x, dim_z, seed)`, with `reduced_form` -/
  | ensemble (N dimx dimz : Nat) (reduced : Bool)
  deriving DecidableEq, Repr

/-- The attribute `self.filter` after `create_filter`; `init_cov` is `None`. -/
structure Filter (QQ RR : Type) where
  kind : Kind
  R : Option RR
  Q : QQ

/-- What `create_filter` uses of `self`. -/
structure Self (PP QQ RR : Type) where
  /-- number of columns of `self.data` -/
  data : Option Nat
  dimx : Nat
  dimq : Nat
  dimeps : Nat
  nobs : Nat
  observables : List String
  shocks : List String
  ppar : Option PP
  /-- `self.fdict["QQ"]` (set for models from dictionaries) -/
  fdictQQ : Option QQ
  filter : Option (Filter QQ RR)

/-- Libraries: the covariance function, its square, whether `grgrwip` is installed, and the constructors for the additional keyword arguments
(given by their values as strings). -/
structure Lib (PP QQ : Type) where
  cov : PP → QQ
  sq : QQ → QQ
  grgrwip : Bool
  kalman : List (String × String) → Except PyErr Unit
  ensemble : List (String × String) → Except PyErr Unit

/-- Arguments of `create_filter`; `fargs` are the additional keyword arguments. -/
structure Args (RR : Type) where
  R : Option RR
  N : Option Nat
  ftype : Option String
  reduced : Bool
  fargs : List (String × String)

/-- filtering.py:73-80: long names. -/
def short : Option String → Option String
  | some s =>
    if s = "KalmanFilter" then some "KF"
    else if s = "ParticleFilter" then some "PF"
    else if s = "AuxiliaryParticleFilter" then some "APF"
    else if s = "InversionFilter" then some "IF"
    else some s
  | none => none

/-- `xs.index(fargs[key])`. -/
def lookupIndex (fargs : List (String × String)) (key : String) (xs : List String) : Except PyErr Nat :=
  match fargs.lookup key with
  | none => .error .keyError
  | some v =>
    match xs.idxOf? v with
    | none => .error .valueError
    | some i => .ok i

variable {PP QQ RR : Type}

/-- filtering.py:82-121: the constructor call. -/
def construct (lib : Lib PP QQ) (self : Self PP QQ RR) (a : Args RR) : Except PyErr Kind :=
  if short a.ftype = some "KF" then
    match lib.kalman a.fargs with
    | .error e => .error e
    | .ok _ => .ok (.kalman self.dimx self.nobs)
  else if short a.ftype = some "IF" then
    if !lib.grgrwip then .error .importError
    else
      match lookupIndex a.fargs "omitted_obs" self.observables with
      | .error e => .error e
      | .ok _ =>
        match lookupIndex a.fargs "omitted_shock" self.shocks with
        | .error e => .error e
        | .ok _ =>
          match a.fargs.lookup "x_bar" with
          | none => .error .keyError
          | some _ => .error .typeError -- `x_bar=fargs['x_bar'], **fargs`: multiple values for `x_bar`
  else if short a.ftype = some "PF" ∨ short a.ftype = some "APF" then .error .importError -- no module `pfilter`
  else
    let N := match a.N with
      | some n => n
      | none => (self.dimq - self.dimeps) ^ 2 / 2 + 1
    match lib.ensemble a.fargs with
    | .error e => .error e
    | .ok _ => .ok (.ensemble N (if a.reduced then self.dimq - self.dimeps else self.dimx) self.nobs a.reduced)

/-- filtering.py:60-133. Returns `self` and the exception, if any. -/
def createFilter (lib : Lib PP QQ) (self : Self PP QQ RR) (a : Args RR) : Self PP QQ RR × Option PyErr :=
  match self.data with
  | none => (self, some .attributeError)
  | some _ =>
    match construct lib self a with
    | .error e => (self, some e)
    | .ok k =>
      match self.ppar with
      | some pp => ({ self with filter := some ⟨k, a.R, lib.sq (lib.cov pp)⟩ }, none)
      | none =>
        match self.fdictQQ with
        | none => (self, some .keyError)
        | some q => ({ self with filter := some ⟨k, a.R, lib.sq q⟩ }, none)

/-! ## Start of `prep_estim` (estimation.py:97-104) -/

/-- The value of `linear`. -/
inductive Linear
  | no
  | yes
  | inversion
  deriving DecidableEq, Repr

/-- estimation.py:99-104: the arguments for `create_filter`. -/
def filterCall (linear : Linear) (N : Nat) (reduced : Bool) (fargs : List (String × String)) : Args RR :=
  match linear with
  | .yes => ⟨none, none, some "KalmanFilter", reduced, fargs⟩
  | .inversion => ⟨none, none, some "IF", reduced, fargs⟩
  | .no => ⟨none, some N, some "EnKF", reduced, fargs⟩

section Prep
variable {K VV HX LS TT : Type} [Field K] [LinearOrder K]

/-- estimation.py:97-104: `set_par("prior_mean", l_max, k_max)`, then the filter. `ob` has the attributes that `set_par` uses, `self` those that
`create_filter` uses in addition (its `ppar` is taken from `ob`). -/
def prepStart (S : Solver K PP VV HX LS TT QQ) (D : Decl K) (dr : Draws K) (lMax kMax : Option Int) (lib : Lib PP QQ)
    (ob : Obj K PP VV HX LS TT QQ) (self : Self PP QQ RR) (linear : Linear) (N : Nat) (reduced : Bool) (fargs : List (String × String)) :
    Except PyErr (Obj K PP VV HX LS TT QQ × Self PP QQ RR) :=
  match setPar S D dr ⟨lMax, kMax, false⟩ lib.sq ob (.str "prior_mean") none with
  | (_, .error e) => .error e
  | (ob', .ok _) =>
    match createFilter { lib with cov := S.cov } { self with ppar := ob'.a.ppar } (filterCall linear N reduced fargs) with
    | (_, some e) => .error e
    | (s, none) => .ok (ob', s)

end Prep

/-! ## `get_eps_lin` for the ensemble filter (filtering.py:53-57): the shapes -/

/-- `A @ v` for a matrix with `c` columns and `r` rows and a vector of length `n`: the length of the result. -/
def matVecLen (r c n : Nat) : Except PyErr Nat := if c = n then .ok r else .error .valueError

/-- `u - v` for vectors: broadcasting. -/
def subLen (n m : Nat) : Except PyErr Nat :=
  if n = m then .ok n else if n = 1 then .ok m else if m = 1 then .ok n else .error .valueError

/-- filtering.py:53-57 for filters other than the Kalman filter: `F = qmat[1, 0][:, :-neps]`, `E = qmat[1, 0][:, -neps:]`, then
`pinv(E) @ (x - F @ xp)`, for vectors `x`, `xp` of lengths `n`, `m`, in a model with `ns` states and `neps` shocks (at least one). -/
def epsLinLen (ns neps n m : Nat) : Except PyErr Nat :=
  match matVecLen (ns + neps) ns m with
  | .error e => .error e
  | .ok r =>
    match subLen n r with
    | .error e => .error e
    | .ok k => matVecLen neps (ns + neps) k

/-- The value for vectors of the lengths `ns + neps` and `ns`. -/
def epsLinEns {z ε K : Type} [Fintype z] [Fintype ε] [Field K] (pinv : Matrix (z ⊕ ε) ε K → Matrix ε (z ⊕ ε) K)
    (qmat10 : Matrix (z ⊕ ε) (z ⊕ ε) K) (x : z ⊕ ε → K) (xp : z → K) : ε → K :=
  let F : Matrix (z ⊕ ε) z K := qmat10.submatrix id Sum.inl
  let E : Matrix (z ⊕ ε) ε K := qmat10.submatrix id Sum.inr
  (pinv E).mulVec (x - F.mulVec xp)

end Pydsge.Create
