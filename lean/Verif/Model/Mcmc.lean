import Verif.Model.Estim

/-!
# `mcmc` (pydsge/mcmc.py), worker pools and the settings of `prep_estim` (pydsge/estimation.py)

The sampler (`emcwrap.run_mcmc`), `prep_estim` as called by `mcmc`, and the search for starting values are abstract. Messages are
left out.
-/

set_option autoImplicit false

namespace Pydsge.Mcmc

/-! ## Mode of the chain (mcmc.py:169) -/

/-- numpy's `argmax` on a non-empty vector: first position of the largest value. -/
def argmaxFrom {α : Type} [LinearOrder α] (best : Nat) (bv : α) (i : Nat) : List α → Nat
  | [] => best
  | x :: xs => if bv < x then argmaxFrom i x (i + 1) xs else argmaxFrom best bv (i + 1) xs

def argmax {α : Type} [LinearOrder α] : List α → Except PyErr Nat
  | [] => .error .valueError
  | x :: xs => .ok (argmaxFrom 0 x 1 xs)

/-- mcmc.py:163-174. `logProbs` is steps by walkers, `chain` steps by walkers by parameters. -/
def modeOf {α X : Type} [LinearOrder α] (logProbs : List (List α)) (chain : List (List X)) (tune : Option Int) :
    Except PyErr (α × X) :=
  match tune with
  | none => .error .typeError -- `-None`
  | some t =>
    let lp := (sliceFrom logProbs (-t)).flatten
    let ch := (sliceFrom chain (-t)).flatten
    match argmax lp with
    | .error e => .error e
    | .ok i =>
      match lp[i]?, ch[i]? with
      | some f, some x => .ok (f, x)
      | _, _ => .error .indexError

/-! ## The worker pool (estimation.py:231-287) -/

/-- The attribute `self.pool`. -/
inductive PoolAttr
  | missing
  | none
  | pool (ncpus : Nat) (closed : Bool)
  deriving DecidableEq, Repr

/-- estimation.py:239-278 `create_pool`; `cpus` is the number of cores of the machine. -/
def createPool (cpus : Nat) (ncores : Option Nat) : PoolAttr → PoolAttr × Option PyErr
  | .missing => (.pool (if ncores.getD 0 = 0 then cpus else ncores.getD 0) false, none)
  | .none => (.none, some .attributeError) -- `None.ncpus` or `None.close()`
  | .pool n _ => (.pool (if ncores.getD 0 = 0 then n else ncores.getD 0) false, none)

/-- estimation.py:281-287 `mapper`, when it is used: the exception due to the pool, if any. -/
def useMapper (debug : Bool) : PoolAttr → Option PyErr
  | .missing => none
  | .none => if debug then none else some .attributeError -- `None.imap`
  | .pool _ closed => if debug then none else if closed then some .valueError else none

/-- What matters for the pool. -/
structure PoolSt where
  debug : Bool
  pool : PoolAttr
  deriving DecidableEq, Repr

/-- Calls that look at the pool. -/
inductive PoolEv
  /-- `prep_estim(debug=, ncores=)`; `fails`: an exception before the pool is looked at -/
  | prepEstim (debug : Bool) (ncores : Option Nat) (fails : Bool)
  | createPool (ncores : Option Nat)
  /-- `irfs(debug=)`; `pars`: whether several parameter vectors are given (tools.py:334) -/
  | irfs (debug : Bool) (pars : Bool)
  | simulate (debug : Bool)
  /-- `extract(debug=)`; `kf`: with the Kalman filter; `fails`: an exception in the loop over the samples -/
  | extract (debug : Bool) (kf : Bool) (fails : Bool)
  | priorSampler (debug : Bool)
  /-- `mcmc()`, up to the sampler -/
  | mcmc
  deriving DecidableEq, Repr

/-- `if hasattr(self, "pool"): create_pool(self)`. -/
def refresh (cpus : Nat) (p : PoolAttr) : PoolAttr × Option PyErr :=
  match p with
  | .missing => (.missing, none)
  | p => createPool cpus none p

/-- The effect of a call on `self.debug` and `self.pool`, and the exception due to the pool. -/
def poolStep (cpus : Nat) (s : PoolSt) : PoolEv → PoolSt × Option PyErr
  | .prepEstim debug ncores fails => -- estimation.py:95, 231-234
    let s := { s with debug := s.debug || debug }
    if fails then (s, none)
    else if !debug && (match ncores with | none => true | some n => n != 0) then
      match createPool cpus ncores s.pool with
      | (p, e) => ({ s with pool := p }, e)
    else ({ s with pool := .none }, none)
  | .createPool ncores =>
    match createPool cpus ncores s.pool with
    | (p, e) => ({ s with pool := p }, e)
  | .irfs debug pars => -- tools.py:199, 211-214, 334
    let s := { s with debug := s.debug || debug }
    match refresh cpus s.pool with
    | (p, some e) => ({ s with pool := p }, some e)
    | (p, none) => ({ s with pool := p }, if pars then useMapper s.debug p else none)
  | .simulate debug => -- tools.py:417-422, 466
    let s := { s with debug := s.debug || debug }
    match refresh cpus s.pool with
    | (p, some e) => ({ s with pool := p }, some e)
    | (p, none) => ({ s with pool := p }, useMapper s.debug p)
  | .extract debug kf fails => -- filtering.py:360-392, 477-488
    match refresh cpus s.pool with
    | (p, some e) => ({ s with pool := p }, some e)
    | (p, none) =>
      let d := if kf then true else s.debug || debug
      match useMapper d p with
      | some e => (⟨d, p⟩, some e)
      | none =>
        let p' := match p with
          | .pool n _ => .pool n true
          | p => p
        if fails then (⟨d, p⟩, none) else (⟨if kf then s.debug else d, p'⟩, none)
  | .priorSampler debug => -- mpile.py:74-89
    let s := { s with debug := s.debug || debug }
    match (if debug then (s.pool, none) else refresh cpus s.pool : PoolAttr × Option PyErr) with
    | (p, some e) => ({ s with pool := p }, some e)
    | (p, none) => ({ s with pool := p }, useMapper s.debug p)
  | .mcmc => -- mcmc.py:78-86
    if s.debug then ({ s with pool := .none }, none)
    else
      match refresh cpus s.pool with
      | (p, e) => ({ s with pool := p }, e)

/-- The state after a sequence of calls (exceptions are caught by the user). -/
def poolRun (cpus : Nat) (s : PoolSt) (l : List PoolEv) : PoolSt := l.foldl (fun s e => (poolStep cpus s e).1) s

/-! ## Settings of `prep_estim` (estimation.py:59-101) -/

/-- The argument `linear`: a bool or a string. -/
inductive Lin
  | bool (b : Bool)
  | str (s : String)
  deriving DecidableEq, Repr

def Lin.truthy : Lin → Bool
  | .bool b => b
  | .str s => s != ""

inductive FilterType
  | kalman
  | inversion
  | ensemble (N : Int)
  deriving DecidableEq, Repr

/-- The entries of `fdict`. -/
structure Settings where
  filterN : Option Int
  linear : Option Lin
  seed : Option Int
  transform : Option Bool
  deriving DecidableEq, Repr

/-- Arguments of `prep_estim`. -/
structure PrepArgs where
  N : Option Int
  linear : Option Lin
  seed : Option Int
  transform : Option Bool
  lMax : Int
  kMax : Int

/-- `prep_estim()`. -/
def PrepArgs.default : PrepArgs := ⟨none, none, none, none, 3, 16⟩

/-- What `prep_estim` decides on. -/
structure Prepared where
  filter : FilterType
  /-- seed of the likelihood -/
  seed : Int
  transform : Bool
  lMax : Int
  kMax : Int
  /-- what the generator is seeded with at the beginning (l.59); `none`: unpredictable -/
  initialSeed : Option Int
  deriving DecidableEq, Repr

/-- estimation.py:59-104. -/
def prep (a : PrepArgs) (f : Settings) : Settings × Prepared :=
  let N := match a.N with
    | some n => n
    | none => match f.filterN with
      | some n => n
      | none => 300
  let linear : Lin := match a.linear with
    | some l => l
    | none => match f.linear with
      | some l => l
      | none => .bool false
  let lk : Int × Int := match a.linear with
    | some l => if l.truthy && l != .str "IF" then (1, 0) else (a.lMax, a.kMax)
    | none => (a.lMax, a.kMax)
  let seed := match a.seed with
    | some s => s
    | none => match f.seed with
      | some s => s
      | none => 0
  let tr := match a.transform with
    | some t => t
    | none => match f.transform with
      | some t => t
      | none => false
  let flt := if linear.truthy && linear != .str "IF" then FilterType.kalman
    else if linear = .str "IF" then .inversion
    else .ensemble N
  (⟨some N, some linear, some seed, some tr⟩, ⟨flt, seed, tr, lk.1, lk.2, a.seed⟩)

/-! ## `mcmc` -/

section
variable {K α B : Type} [LinearOrder α]

/-- The array `p0`: a matrix (one row for each walker) or a vector. -/
inductive P0 (K : Type)
  | mat (m : List (List K))
  | vec (v : List K)
  deriving DecidableEq

inductive BackendArg
  | off
  | on
  | file (s : String)
  deriving DecidableEq

structure Args (K : Type) where
  p0 : Option (P0 K)
  nsteps : Nat
  nwalks : Option Nat
  tune : Option Int
  /-- `none`: the default `False` -/
  temp : Option K
  backend : BackendArg
  suffix : Option String
  resume : Bool
  append : Bool

/-- What `mcmc` uses and changes. Files: path to content. -/
structure St (K α B : Type) where
  ndim : Nat
  pool : PoolSt
  backendFile : Option String
  files : String → Option B
  modeX : Option (List K)
  modeF : Option α

/-- Stored draws. -/
structure Chain (K α : Type) where
  logProbs : List (List α)
  chain : List (List (List K))

/-- The rest of the world. -/
structure Env (K α B : Type) where
  cpus : Nat
  /-- `os.path.join(self.path, self.name + suffix)` -/
  path : String → String
  /-- `get_par(self, "prior_mean" | "best", full=False, nsample=nwalks)` -/
  start : Bool → Except PyErr (P0 K)
  /-- content of a backend after `reset(nwalks, ndim)`; may raise -/
  fresh : Nat → Nat → Except PyErr B
  /-- `run_mcmc`: starting values, name of the backend, resume, files; returns the chain of the sampler and the files -/
  run : Option (P0 K) → Option String → Bool → (String → Option B) → Except PyErr (Chain K α × (String → Option B))

variable [Field K] [LinearOrder K]

/-- mcmc.py:106-121: starting values and number of walkers. -/
def startValues (E : Env K α B) (a : Args K) (temp : K) : Except PyErr (Option (P0 K) × Option Nat) :=
  match a.p0 with
  | none =>
    if !a.resume then
      match E.start (decide (temp < 1)) with
      | .error e => .error e
      | .ok p => .ok (some p, a.nwalks)
    else .ok (none, a.nwalks)
  | some p =>
    if !a.resume then .ok (some p, some (match p with | .mat m => m.length | .vec v => v.length))
    else .ok (some p, a.nwalks)

/-- mcmc.py:125-140: the path of the backend; the default file is deleted if it exists. -/
def backendPath (E : Env K α B) (a : Args K) (s : St K α B) : St K α B × String :=
  match s.backendFile with
  | some f => (s, f)
  | none =>
    let path := E.path (match a.suffix with
      | some x => if x = "" then "_sampler.h5" else x
      | none => "_sampler.h5")
    if (s.files path).isSome && !(a.resume || a.append) then ({ s with files := Function.update s.files path none }, path)
    else (s, path)

/-- mcmc.py:142-153: reset the backend, if it is neither to be resumed nor to be appended to. -/
def resetBackend (E : Env K α B) (a : Args K) (nwalks : Option Nat) (s : St K α B) (path : String) :
    St K α B × Except PyErr (Option String) :=
  if a.resume || a.append then (s, .ok (some path))
  else if nwalks.getD 0 = 0 then (s, .error .typeError)
  else
    match E.fresh (nwalks.getD 0) s.ndim with
    | .error e => (s, .error e)
    | .ok b => ({ s with files := Function.update s.files path (some b) }, .ok (some path))

/-- mcmc.py:123-155: the backend (none if the argument is false or the empty text). Returns its path. -/
def openBackend (E : Env K α B) (a : Args K) (nwalks : Option Nat) (s : St K α B) : St K α B × Except PyErr (Option String) :=
  match a.backend with
  | .off => (s, .ok none)
  | .on => resetBackend E a nwalks (backendPath E a s).1 (backendPath E a s).2
  | .file f =>
    if f = "" then (s, .ok none)
    else
      let s := { s with backendFile := some f }
      resetBackend E a nwalks (backendPath E a s).1 (backendPath E a s).2

/-- mcmc.py:66-178, after `prep_estim`. -/
def mcmc (E : Env K α B) (s : St K α B) (a : Args K) : St K α B × Except PyErr Unit :=
  match poolStep E.cpus s.pool .mcmc with
  | (p, some e) => ({ s with pool := p }, .error e)
  | (p, none) =>
    let s := { s with pool := p }
    let temp := a.temp.getD 1
    if p.pool = .missing then (s, .error .attributeError) -- l.103
    else
      match startValues E a temp with
      | .error e => (s, .error e)
      | .ok (p0, nwalks) =>
        match openBackend E a nwalks s with
        | (s, .error e) => (s, .error e)
        | (s, .ok path) =>
          match E.run p0 path a.resume s.files with
          | .error e => (s, .error e)
          | .ok (c, files) =>
            let s := { s with files := files }
            if temp = 1 then
              match modeOf c.logProbs c.chain a.tune with
              | .error e => (s, .error e)
              | .ok (f, x) => ({ s with modeF := some f, modeX := some x }, .ok ())
            else (s, .ok ())

end
end Pydsge.Mcmc
