import Verif.Model.GenSys

/-!
# Parameters: `get_par`, `set_par`, `box_check` (pydsge/mpile.py) and the crash points of `gen_sys_from_yaml`

Vectors of parameters are lists (numpy arrays in the code).  Printing, rounding and `asdict` are left out.  What the solver
computes is abstract; where it writes to `self`, and in which order, is not.
-/

set_option autoImplicit false

namespace Pydsge.Params

variable {K PP VV HX LS TT QQ : Type}

/-- One entry of the prior section `[init, lb, ub, dist, a, b]`, as far as `get_par` uses it. -/
structure PriorEntry (K : Type) where
  uniform : Bool
  invGammaDynare : Bool
  a : K
  b : K

/-- parser.py:963-966: the names of the estimated parameters, their positions in the parameter vector, their priors. -/
structure Prior (K : Type) where
  names : List String
  arg : List Nat
  entries : List (PriorEntry K)

/-- What parsing fixes once and for all: `parameters`, `par_fix` (parser.py:959), `parafunc`, `prior*` (parser.py:962-969). -/
structure Decl (K : Type) where
  names : List String
  parFix : List K
  pfNames : List String
  pf : List K → List K
  prior : Option (Prior K)

/-- The computations of `gen_sys_from_yaml` / `gen_sys` / `preprocess`, stage by stage. -/
structure Solver (K PP VV HX LS TT QQ : Type) where
  /-- `self.pcompile(self.par)` (gensys.py:116) -/
  pcompile : List K → Except PyErr PP
  /-- `self.const_var` (l.123) -/
  constVar : Bool
  /-- the value of `x_bar` (l.127-137) -/
  xbar : List K → Except PyErr K
  /-- `self.variables` (l.141) -/
  vv0 : VV
  /-- evaluation of the matrices (l.143-155) -/
  mats : PP → Except PyErr Unit
  /-- gensys.py:241-341: the masks, `self.vv` and `self.hx` -/
  masks : PP → Except PyErr (VV × HX)
  /-- gensys.py:346-380: `self.sys`, `self.ff` -/
  linear : PP → K → Except PyErr LS
  /-- engine.py:191-202: `self.precalc_mat` -/
  tables : PP → K → Int × Int → Except PyErr TT
  /-- `self.QQ(self.ppar)` -/
  cov : PP → QQ

/-- The attributes of `self` that these methods write.  `none`: the attribute does not exist (yet). -/
structure Attrs (K PP VV HX LS TT QQ : Type) where
  par : Option (List K)
  ppar : Option PP
  xbar : Option K
  vv : Option VV
  lks : Option (Int × Int)
  hx : Option HX
  sys : Option LS
  tables : Option TT
  filterQ : Option QQ

/-- Optional arguments of `gen_sys_from_yaml` that `set_par` and `get_par` pass on. -/
structure GenArgs where
  lMax : Option Int
  kMax : Option Int
  hxOnly : Bool

section
variable [Field K] [LinearOrder K]

/-- gensys.py:103-175 and 178-394, with all writes to `self` in order.  Returns the attributes and the exception, if any. -/
def genSysYaml (S : Solver K PP VV HX LS TT QQ) (D : Decl K) (g : GenArgs) (a : Attrs K PP VV HX LS TT QQ) (par : Option (List K)) :
    Attrs K PP VV HX LS TT QQ × Option PyErr :=
  let v := match par with
    | none => D.parFix
    | some v => v
  let a := { a with par := some v }
  match S.pcompile v with
  | .error e => (a, some e)
  | .ok pp =>
    let a := { a with ppar := some pp }
    if !S.constVar then (a, some .notImplemented)
    else
      match S.xbar v with
      | .error e => (a, some e)
      | .ok xb =>
        let a := { a with xbar := some xb }
        if xb > 0 then (a, some .notImplemented)
        else
          let a := { a with vv := some S.vv0 }
          match S.mats pp with
          | .error e => (a, some e)
          | .ok _ =>
            match GenSys.newLks g.lMax g.kMax a.lks with
            | .error e => (a, some e)
            | .ok lks =>
              let a := { a with lks := some lks }
              match S.masks pp with
              | .error e => (a, some e)
              | .ok (vv, hx) =>
                let a := { a with vv := some vv, hx := some hx }
                if g.hxOnly then (a, none)
                else
                  match S.linear pp xb with
                  | .error e => (a, some e)
                  | .ok ls =>
                    let a := { a with sys := some ls }
                    match S.tables pp xb lks with
                    | .error e => (a, some e)
                    | .ok t => ({ a with tables := some t }, none)

end

/-- `self`, as far as parameters are concerned: attributes, and the entries `mode_x`, `init_value` of `fdict`, and `ndim`. -/
structure Obj (K PP VV HX LS TT QQ : Type) where
  a : Attrs K PP VV HX LS TT QQ
  modeX : Option (List K)
  initValue : Option (List (Option K))
  ndim : Option Nat

/-- The argument `dummy`. -/
inductive Dummy (K : Type)
  | none
  | str (s : String)
  | vec (v : List K)

/-- numpy broadcasting of a vector to length `n`. -/
def bcast {α : Type} (n : Nat) (v : List α) : Except PyErr (List α) :=
  if v.length = n then .ok v
  else match v with
    | [x] => .ok (List.replicate n x)
    | _ => .error .valueError

/-- `v[arg] = w` for a list of positions. -/
def setMany {α : Type} : List α → List Nat → List α → List α
  | v, i :: is, x :: xs => setMany (v.set i x) is xs
  | v, _, _ => v

def fancySet {α : Type} (v : List α) (arg : List Nat) (w : List α) : Except PyErr (List α) :=
  if arg.all (· < v.length) then
    match bcast arg.length w with
    | .error e => .error e
    | .ok w => .ok (setMany v arg w)
  else .error .indexError

/-- `v[arg]` for a list of positions. -/
def fancyGet {α : Type} (v : List α) (arg : List Nat) : Except PyErr (List α) :=
  arg.mapM fun i => match v[i]? with
    | some x => .ok x
    | none => .error .indexError

/-- `par_cand`: a vector, a vector with an additional leading axis (`v[None]`), or a sample. -/
inductive Cand (K : Type)
  | vec (v : List K)
  | wrapped (v : List K)
  | mat (m : List (List K))
  deriving DecidableEq

/-- `v[self.prior_arg]`; `v[None]` adds an axis. -/
def takePrior (D : Decl K) (v : List K) : Except PyErr (Cand K) :=
  match D.prior with
  | none => .ok (.wrapped v)
  | some p => match fancyGet v p.arg with
    | .error e => .error e
    | .ok w => .ok (.vec w)

/-- `par[self.prior_arg] = par_cand`. -/
def assignPrior (D : Decl K) (v : List K) : Cand K → Except PyErr (List K)
  | .vec w => match D.prior with
    | none => bcast v.length w
    | some p => fancySet v p.arg w
  | .wrapped w => match D.prior with
    | none => bcast v.length w
    | some p => fancySet v p.arg w
  | .mat _ => .error .valueError

/-- Result of `get_par`. -/
inductive ParVal (K QQ : Type)
  | scalar (x : K)
  | vec (v : List K)
  | cand (c : Cand K)
  | mat (m : List (List K))
  | cov (q : QQ)
  deriving DecidableEq

/-- mpile.py:211-219 `prior_mean`. -/
def priorMean [Field K] (p : Prior K) : List K :=
  p.entries.map fun e => if e.uniform then e.a / 2 + e.b / 2 else e.a

/-- mpile.py:221-233 `adj_prior_mean`. -/
def adjPriorMean [Field K] (p : Prior K) : List K :=
  p.entries.map fun e => if e.invGammaDynare then e.a * 10 else if e.uniform then e.a / 2 + e.b / 2 else e.a

/-- Samples, posterior means and normal random numbers come from outside. -/
structure Draws (K : Type) where
  prior : Nat → Except PyErr (List (List K))
  posterior : Nat → Except PyErr (List (List K))
  postMean : Except PyErr (List K)
  /-- `np.random.randn(n, m)` -/
  randn : Nat → Nat → List (List K)

/-- mpile.py:235-239: fill the missing initial values, in place. -/
def fillInit (init : List (Option K)) (calib : List K) : List K :=
  List.zipWith (fun i c => match i with | some x => x | none => c) init calib

def isMode (s : String) : Bool := s ∈ ["mode", "mcmc_mode", "mode_mcmc", "posterior_mode", "post_mode"]
def isSample (s : String) : Bool := s ∈ ["prior", "post", "posterior"]

section
variable [Field K]

/-- mpile.py:192-245: the named sets.  `self.par` is overwritten by `par_fix` first and only restored for unknown names. -/
def namedSet (D : Decl K) (dr : Draws K) (ob : Obj K PP VV HX LS TT QQ) (s : String) (nsamples : Nat) :
    Obj K PP VV HX LS TT QQ × Except PyErr (Cand K) :=
  let ob' := { ob with a := { ob.a with par := some D.parFix } }
  if s = "prior" then (ob', (dr.prior nsamples).map .mat)
  else if s = "post" ∨ s = "posterior" then (ob', (dr.posterior nsamples).map .mat)
  else if s = "posterior_mean" ∨ s = "post_mean" then (ob', dr.postMean.map .vec)
  else if isMode s then
    match ob.modeX with
    | none => (ob', .error .keyError)
    | some v => (ob', .ok (.vec v))
  else if s = "calib" then (ob', takePrior D D.parFix)
  else if s = "prior_mean" then
    match D.prior with
    | none => (ob', .error .attributeError)
    | some p => (ob', .ok (.vec (priorMean p)))
  else if s = "adj_prior_mean" then
    match D.prior with
    | none => (ob', .error .attributeError)
    | some p => (ob', .ok (.vec (adjPriorMean p)))
  else if s = "init" then
    match ob.initValue with
    | none => (ob', .error .keyError)
    | some init =>
      match ob.ndim with
      | none => (ob', .error .attributeError)
      | some _ =>
        match D.prior with
        | none => (ob', .error .exception) -- not reachable: `init_value` is only set by `prep_estim`, which needs a prior
        | some p =>
          match fancyGet D.parFix p.arg with
          | .error e => (ob', .error e)
          | .ok calib =>
            let v := fillInit init calib
            ({ ob' with initValue := some (v.map some) }, .ok (.vec v))
  else (ob, .error .keyError)

/-- mpile.py:182-190: `best` is `mode` if that works, else `init` (`except:` catches everything).  A model with a parameter or a function
of parameters that is called `mode` or `init` is left out: `get_par` would return that parameter instead. -/
def bestSet (D : Decl K) (dr : Draws K) (ob : Obj K PP VV HX LS TT QQ) : Obj K PP VV HX LS TT QQ × Except PyErr (Cand K) :=
  match namedSet D dr ob "mode" 1 with
  | (ob', .ok c) => (ob', .ok c)
  | (ob', .error _) => namedSet D dr ob' "init" 1

/-- mpile.py:246-256 (`full=True`, `asdict=False`). -/
def fullPar (D : Decl K) (pars : List K) (nsamples : Nat) (c : Cand K) : Except PyErr (ParVal K QQ) :=
  match c with
  | .mat m =>
    match (List.range nsamples).mapM (fun i => match m[i]? with
        | none => (.error .indexError : Except PyErr (List K))
        | some w => assignPrior D pars (.vec w)) with
    | .error e => .error e
    | .ok rows => .ok (.mat rows)
  | c =>
    match assignPrior D pars c with
    | .error e => .error e
    | .ok v => .ok (.vec v)

/-- `x * (1 + 0.001 * z)` (mpile.py:265-268). -/
def noisy (x z : K) : K := x * (1 + 1 / 1000 * z)

/-- mpile.py:265-268: several copies of the candidate, each with noise.  `len(par_cand)` is 1 if `prior_arg` is `None`; the only column
of the random numbers is broadcast then. -/
def scatter (dr : Draws K) (nsamples : Nat) : Cand K → ParVal K QQ
  | .vec v => .mat ((dr.randn nsamples v.length).map fun z => List.zipWith noisy v z)
  | .wrapped v => .mat ((dr.randn nsamples 1).map fun z => v.map fun x => noisy x (z.headD 0))
  | .mat m => .cand (.mat m)

/-- mpile.py:265-269 (`full=False`, `asdict=False`).  `dummy not in ("prior", ...)` compares element by element if `dummy` is an array,
and the truth value of several comparisons is ambiguous. -/
def candPar (dr : Draws K) (nsamples : Nat) (dummy : Dummy K) (c : Cand K) : Except PyErr (ParVal K QQ) :=
  if nsamples > 1 then
    match dummy with
    | .none => .ok (scatter dr nsamples c)
    | .str s => .ok (if isSample s then .cand c else scatter dr nsamples c)
    | .vec v => if v.length > 1 then .error .valueError else .ok (scatter dr nsamples c)
  else .ok (.cand c)

variable [LinearOrder K]

/-- mpile.py:142-152: `pars`, after making sure that there are current parameters, with `npar`. -/
def startPars (S : Solver K PP VV HX LS TT QQ) (D : Decl K) (g : GenArgs) (ob : Obj K PP VV HX LS TT QQ) (npar : Option (List K)) :
    Obj K PP VV HX LS TT QQ × Except PyErr (List K) :=
  let (a, err) := match ob.a.par with
    | some _ => (ob.a, none)
    | none => genSysYaml S D g ob.a none
  let ob := { ob with a := a }
  match err with
  | some e => (ob, .error e)
  | none =>
    let pars := match a.par with
      | some v => v
      | none => D.parFix
    match npar with
    | none => (ob, .ok pars)
    | some w =>
      if w.length ≠ D.parFix.length then (ob, assignPrior D pars (.vec w))
      else (ob, .ok w)

/-- mpile.py:92-269 `get_par` for `asdict=False`. -/
def getPar (S : Solver K PP VV HX LS TT QQ) (D : Decl K) (dr : Draws K) (g : GenArgs) (ob : Obj K PP VV HX LS TT QQ) (dummy : Dummy K)
    (npar : Option (List K)) (full : Bool) (nsamples : Nat) : Obj K PP VV HX LS TT QQ × Except PyErr (ParVal K QQ) :=
  let finish (ob : Obj K PP VV HX LS TT QQ) (pars : List K) (c : Cand K) : Obj K PP VV HX LS TT QQ × Except PyErr (ParVal K QQ) :=
    (ob, if full then fullPar D pars nsamples c else candPar dr nsamples dummy c)
  match startPars S D g ob npar with
  | (ob, .error e) => (ob, .error e)
  | (ob, .ok pars) =>
    match dummy with
    | .none =>
      match takePrior D pars with
      | .ok c => finish ob pars c
      | .error _ => -- l.156 `except:`
        match bestSet D dr ob with
        | (ob, .error e) => (ob, .error e)
        | (ob, .ok c) => finish ob pars c
    | .vec v =>
      if v.length = D.parFix.length then
        match takePrior D v with
        | .error e => (ob, .error e)
        | .ok c => finish ob pars c
      else
        match D.prior with
        | none => (ob, .error .typeError) -- len(None)
        | some p =>
          if v.length = p.arg.length then finish ob pars (.vec v)
          else (ob, .error .valueError) -- `dummy in pars_str` on an array
    | .str s =>
      match D.names.idxOf? s with
      | some i => (ob, match pars[i]? with
        | some x => .ok (.scalar x)
        | none => .error .indexError)
      | none =>
        match D.pfNames.idxOf? s with
        | some i => (ob, match (D.pf pars)[i]? with
          | some x => .ok (.scalar x)
          | none => .error .indexError)
        | none =>
          if s = "cov_mat" then
            match genSysYaml S D g ob.a (some pars) with
            | (a, some e) => ({ ob with a := a }, .error e)
            | (a, none) => ({ ob with a := a }, match a.ppar with
              | some pp => .ok (.cov (S.cov pp))
              | none => .error .attributeError)
          else if s = "best" then
            match bestSet D dr ob with
            | (ob, .error e) => (ob, .error e)
            | (ob, .ok c) => finish ob pars c
          else
            match namedSet D dr ob s nsamples with
            | (ob, .error e) => (ob, .error e)
            | (ob, .ok c) => finish ob D.parFix c

/-- Python's `len(dummy)`. -/
def Dummy.len : Dummy K → Nat
  | .none => 0
  | .str s => s.length
  | .vec v => v.length

/-- mpile.py:345-359: the end of `set_par`: solve the model, update the filter, return `get_par(self)`. -/
def finishSet (S : Solver K PP VV HX LS TT QQ) (D : Decl K) (dr : Draws K) (g : GenArgs) (sq : QQ → QQ)
    (ob : Obj K PP VV HX LS TT QQ) (par : List K) : Obj K PP VV HX LS TT QQ × Except PyErr (ParVal K QQ) :=
  match genSysYaml S D g ob.a (some par) with
  | (a, some e) => ({ ob with a := a }, .error e)
  | (a, none) =>
    let a := match a.filterQ, a.ppar with
      | some _, some pp => { a with filterQ := some (sq (S.cov pp)) }
      | _, _ => a
    getPar S D dr ⟨none, none, false⟩ { ob with a := a } .none none true 1

/-- `par = np.array(self.par) if hasattr(self, "par") else np.array(self.par_fix)` (mpile.py:310-311). -/
def curPar (D : Decl K) (a : Attrs K PP VV HX LS TT QQ) : List K :=
  match a.par with
  | some v => v
  | none => D.parFix

/-- mpile.py:277-359 `set_par` without `npar`.  A string is measured by `len` before it is looked at as a name; a string that passes as
a vector of parameters is assigned element by element, which fails (`float("b")`). -/
def setPar (S : Solver K PP VV HX LS TT QQ) (D : Decl K) (dr : Draws K) (g : GenArgs) (sq : QQ → QQ) (ob : Obj K PP VV HX LS TT QQ)
    (dummy : Dummy K) (setpar : Option K) : Obj K PP VV HX LS TT QQ × Except PyErr (ParVal K QQ) :=
  let viaGet : Obj K PP VV HX LS TT QQ × Except PyErr (ParVal K QQ) :=
    match getPar S D dr g ob dummy none true 1 with
    | (ob, .error e) => (ob, .error e)
    | (ob, .ok (.vec v)) => finishSet S D dr g sq ob v
    | (ob, .ok (.scalar _)) => (ob, .error .typeError) -- list() of a number
    | (ob, .ok _) =>
      -- `list(par)` is a list of rows; it ends up in `self.par` (represented by the empty list), unpacking it fails
      ({ ob with a := { ob.a with par := some [] } }, .error .valueError)
  match setpar with
  | none =>
    match dummy with
    | .none => viaGet
    | .vec v =>
      if v.length = D.parFix.length then finishSet S D dr g sq ob v
      else
        match D.prior with
        | none => (ob, .error .typeError)
        | some p =>
          if v.length = p.arg.length then
            match fancySet (curPar D ob.a) p.arg v with
            | .error e => (ob, .error e)
            | .ok par => finishSet S D dr g sq ob par
          else viaGet
    | .str s =>
      if s.length = D.parFix.length then
        -- `par = dummy`; `gen_sys(self, par=list(dummy))` stores the characters in `self.par` (represented by the empty list),
        -- computing with them fails
        ({ ob with a := { ob.a with par := some [] } }, .error .typeError)
      else
        match D.prior with
        | none => (ob, .error .typeError)
        | some p =>
          if s.length = p.arg.length then (ob, .error .valueError)
          else viaGet
  | some x =>
    match dummy with
    | .str s =>
      match D.names.idxOf? s with
      | some i => finishSet S D dr g sq ob ((curPar D ob.a).set i x)
      | none => (ob, .error .syntaxError)
    | _ => (ob, .error .syntaxError)

/-- mpile.py:327-335 `set_par(name, value, npar=v)`. -/
def setParNpar (D : Decl K) (name : String) (x : K) (npar : List K) : Except PyErr (List K) :=
  match D.names.idxOf? name with
  | none => .error .syntaxError
  | some i =>
    match D.prior with
    | none => .error .typeError
    | some p =>
      if npar.length = p.arg.length then
        match p.names.idxOf? name with
        | none => .error .valueError
        | some j => if j < npar.length then .ok (npar.set j x) else .error .indexError
      else if i < npar.length then .ok (npar.set i x) else .error .indexError

/-- tools.py:117-129 `obs(state, pars=pars)`: for each pair of states and parameters, `set_par(par, get_hx_only=True)` and apply the
observation matrices (`app`) to the states. -/
def obsPars {X Y : Type} (S : Solver K PP VV HX LS TT QQ) (D : Decl K) (dr : Draws K) (sq : QQ → QQ) (app : HX → X → Except PyErr Y)
    (ob : Obj K PP VV HX LS TT QQ) : List (X × List K) → Obj K PP VV HX LS TT QQ × Except PyErr (List Y)
  | [] => (ob, .ok [])
  | (x, par) :: rest =>
    match setPar S D dr ⟨none, none, true⟩ sq ob (.vec par) none with
    | (ob, .error e) => (ob, .error e)
    | (ob, .ok _) =>
      match ob.a.hx with
      | none => (ob, .error .attributeError)
      | some hx =>
        match app hx x with
        | .error e => (ob, .error e)
        | .ok y =>
          match obsPars S D dr sq app ob rest with
          | (ob, .error e) => (ob, .error e)
          | (ob, .ok ys) => (ob, .ok (y :: ys))

end

section Box
variable [LinearOrder K]

/-- A message of `box_check`. -/
inductive BoxMsg (K : Type)
  | low (name : String) (x lb : K)
  | high (name : String) (x ub : K)
  deriving DecidableEq

/-- mpile.py:374-392: the loop over `fdict["prior_names"]`. -/
def boxLoop : List String → List K → List K → List K → Except PyErr (List (BoxMsg K))
  | [], _, _, _ => .ok []
  | n :: ns, x :: xs, l :: ls, u :: us =>
    match boxLoop ns xs ls us with
    | .error e => .error e
    | .ok rest => .ok ((if x < l then [.low n x l] else []) ++ (if x > u then [.high n x u] else []) ++ rest)
  | _ :: _, _, _, _ => .error .indexError

/-- mpile.py:362-392 `box_check`; `cur` is `self.par`. -/
def boxCheck (names : List String) (lb ub : List K) (cur : List K) (par : Option (List K)) : Except PyErr (List (BoxMsg K)) :=
  boxLoop names (match par with | none => cur | some v => v) lb ub

end Box
end Pydsge.Params
