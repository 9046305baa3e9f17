import Verif.Model.Py

/-!
# Reading chains and using them (clsmethods.py:54-105, 196-247; stats.py:213-261)

`X` are parameter vectors, `α` log densities. A chain is a list of steps, each a list with one entry for each walker.
-/

set_option autoImplicit false

namespace Pydsge.Chains

variable {X α : Type}

/-- What a sampler or backend file holds: the draws as the sampler made them, and their log densities. -/
structure Stored (X α : Type) where
  chain : List (List X)
  lps : List (List α)

/-- The attributes that matter. `bptrans` is `none` if the attribute is missing, `some none` if it is `None`. -/
structure Obj (X α : Type) where
  sampler : Option (Stored X α)
  backendFile : Option String
  path : String
  name : String
  bptrans : Option (Option (X → X))
  tune : Option Int
  fdictTune : Option Int

/-- The rest of the world: files, `os.path.join`, and `load_estim` (= `prep_estim`). -/
structure World (X α : Type) where
  files : String → Option (Stored X α)
  join : String → String → String
  loadEstim : Obj X α → Except PyErr (Obj X α)

/-- clsmethods.py:63-79: which reader is used. An empty name counts as not given; an empty name in `fdict` leaves `reader` unbound. -/
def readerOf (W : World X α) (s : Obj X α) (arg : Option String) : Except PyErr (Stored X α) :=
  let openFile (f : String) : Except PyErr (Stored X α) :=
    if f = "" then .error .unboundLocal
    else match W.files f with
      | none => .error .nameError
      | some st => .ok st
  if arg ≠ none ∧ arg ≠ some "" then openFile (arg.getD "")
  else match s.sampler, s.backendFile with
    | some st, _ => .ok st
    | none, some f => openFile f
    | none, none => openFile (W.join s.path (s.name ++ "_sampler.h5"))

/-- clsmethods.py:54-99 `get_chain(backend_file=arg)`: the transformation is applied to every draw. -/
def getChain (W : World X α) (s : Obj X α) (arg : Option String) : Obj X α × Except PyErr (List (List X)) :=
  match readerOf W s arg with
  | .error e => (s, .error e)
  | .ok st =>
    match s.bptrans with
    | some (some f) => (s, .ok (st.chain.map (·.map f)))
    | some none => (s, .ok st.chain)
    | none =>
      match W.loadEstim s with
      | .error e => (s, .error e)
      | .ok s' =>
        match s'.bptrans with
        | none => (s', .error .attributeError)
        | some (some f) => (s', .ok (st.chain.map (·.map f)))
        | some none => (s', .ok st.chain)

/-- clsmethods.py:102-105, 86-87 `get_log_prob(backend_file=arg)`. -/
def getLogProb (W : World X α) (s : Obj X α) (arg : Option String) : Except PyErr (List (List α)) :=
  match readerOf W s arg with
  | .error e => .error e
  | .ok st => .ok st.lps

/-- clsmethods.py:46-51 `get_tune`. -/
def getTune (s : Obj X α) : Except PyErr Int :=
  match s.tune, s.fdictTune with
  | some t, _ => .ok t
  | none, some t => .ok t
  | none, none => .error .keyError

/-- `tune or self.get_tune`. -/
def tuneOr (s : Obj X α) (tune : Option Int) : Except PyErr Int :=
  match tune with
  | some t => if t ≠ 0 then .ok t else getTune s
  | none => getTune s

/-- stats.py:224-235: the chain (draws by parameters) and the densities that `mdd` hands to the approximation. -/
def mddInputs (W : World X α) (s : Obj X α) (chain : Option (List X)) (lprobs : Option (List α)) (tune : Option Int) :
    Except PyErr (List X × List α) := do
  let (s, tune, c) ← match chain with
    | some c => pure (s, tune, c)
    | none => do
      let t ← tuneOr s tune
      let r := getChain W s none
      let c ← r.2
      pure (r.1, some t, (sliceFrom c (-t)).flatten)
  let l ← match lprobs with
    | some l => pure l
    | none => do
      let t ← tuneOr s tune
      let l ← getLogProb W s none
      pure (sliceFrom l (-t)).flatten
  return (c, l)

/-- stats.py:237-261: which approximation is used. -/
inductive MddMethod
  | laplace | hess | mhm
  deriving DecidableEq, Repr

/-- stats.py:237-259. -/
def mddMethod (method : String) : Except PyErr MddMethod :=
  if method = "laplace" ∨ method = "lp" then .ok .laplace
  else if method = "hess" then .ok .hess
  else if method = "mhm" then .ok .mhm
  else .error .notImplemented

/-- clsmethods.py:217-233: the chain and the densities that `mcmc_summary` hands over. An `AttributeError` of `get_chain` is raised anew. -/
def summaryInputs (W : World X α) (s : Obj X α) (chain : Option (List (List X))) (tune : Option Int) :
    Except PyErr (List (List X) × List (List α)) := do
  let (s, c) ← match chain with
    | some c => pure (s, c)
    | none => do
      let r := getChain W s none
      let c ← r.2
      pure (r.1, c)
  let t ← tuneOr s tune
  let l ← getLogProb W s none
  return (sliceFrom c (-t), sliceFrom l (-t))

/-- clsmethods.py:236-247 `posterior2csv`: the rows of the file, for draws with `d` parameters. `DataFrame(post.T, index)` raises if
the number of labels is wrong. -/
def posterior2csv {K : Type} {d : Nat} (W : World (Fin d → K) α) (s : Obj (Fin d → K) α) (priorNames : List String) (tune : Option Int) :
    Except PyErr (List (String × List K)) := do
  let t ← tuneOr s tune
  let c ← (getChain W s none).2
  let post := (sliceFrom c (-t)).flatten
  if priorNames.length ≠ d then throw .valueError
  return List.zip priorNames (List.ofFn fun i : Fin d => post.map (· i))

/-! ## The transformation over time (estimation.py:84-93, 190-194, 229; mcmc.py:61-64, 88-101, 157-161; clsmethods.py:92-99) -/

/-- The state: `fdict["use_prior_transform"]`, the attribute `bptrans` (as: is the transformation switched on), whether the current
`lprob` transforms its argument, and the draws of the last `mcmc` (arguments of `lprob`) with the setting of that `lprob`. -/
structure TState (X : Type) where
  setting : Option Bool
  attr : Option Bool
  lprob : Option Bool
  run : Option (List (List X) × Bool)

inductive TEv (X : Type)
  /-- `prep_estim(use_prior_transform=arg)` -/
  | prep (arg : Option Bool)
  /-- `mcmc`, after which the sampler holds the given draws -/
  | mcmc (draws : List (List X))
  /-- `get_chain()` -/
  | getChain

/-- estimation.py:84-93, 190-194, 229. -/
def TState.prep (s : TState X) (arg : Option Bool) : TState X :=
  let b := arg.getD (s.setting.getD false)
  { s with setting := some b, attr := some b, lprob := some b }

/-- One call. -/
def TState.step (s : TState X) : TEv X → TState X
  | .prep arg => s.prep arg
  | .mcmc draws =>
    -- mcmc.py:61-64: `prep_estim` if it seems to be missing
    let s := if s.lprob.isNone then s.prep none else s
    { s with run := some (draws, s.lprob.getD false) }
  | .getChain => if s.attr.isNone then s.prep none else s

/-- What `get_chain()` returns. -/
def TState.chain (f : X → X) (s : TState X) : Option (List (List X)) :=
  let s := s.step .getChain
  s.run.map fun r => if s.attr = some true then r.1.map (·.map f) else r.1

end Pydsge.Chains
