import Verif.Model.Py

/-!
# The prior of a model over time (estimation.py:126-141, 224-236; mpile.py:38-89, 210-233, 362-392; parser.py:529-545, 564-630, 962-969)

`self.prior` is a dictionary that users change in place (docs/getting_started, "Sample from prior"). `P` stands for its contents, `F` for the results
of `emcwrap.get_prior` (frozen distributions, density, transformation, bounds, initial values), which is a function of the contents. Names of the
estimated parameters are those of the file; changes concern the distributions.
-/

set_option autoImplicit false

namespace Pydsge.PriorHist

variable {P F : Type}

/-- The places at which information on the prior is kept. -/
structure St (P F : Type) where
  /-- in the text of the model and in `fdict["model_dump"]` (parser.py:537) -/
  file : P
  /-- `self.prior` (parser.py:963) -/
  prior : P
  /-- `fdict["frozen_prior"]`, `fdict["prior_bounds"]`, `fdict["init_value"]` (estimation.py:139-141) -/
  frozen : Option F
  /-- `self.lprob`, `self.lprior`, `self.bptrans` (estimation.py:226-229) -/
  fns : Option F
  /-- `hasattr(self, "ndim")` (estimation.py:135) -/
  ndim : Bool
  deriving DecidableEq

/-- parser.py:529-543, 962-966: a model that has been read. -/
def ofRead (file : P) : St P F := ⟨file, file, none, none, false⟩

/-- Errors of one run of `prep_estim`: before line 126 (solution, filter, dry run), and after line 230 (pool). -/
structure Run where
  early : Option PyErr := none
  late : Option PyErr := none
  deriving DecidableEq

/-- estimation.py:25-238 as far as it concerns the prior. -/
def prep (G : P → Except PyErr F) (r : Run) (s : St P F) : St P F × Option PyErr :=
  match r.early with
  | some e => (s, some e)
  | none =>
    match G s.prior with
    | .error e => ({ s with ndim := true }, some e)
    | .ok f => ({ s with ndim := true, frozen := some f, fns := some f }, r.late)

/-- mcmc.py:61-64, mpile.py:65-66 (`prior_sampler` with `check_likelihood=True`): `if not hasattr(self, "ndim"): self.prep_estim(...)`. -/
def ensure (G : P → Except PyErr F) (r : Run) (s : St P F) : St P F × Option PyErr :=
  if s.ndim then (s, none) else prep G r s

/-- clsmethods.py:92-94 (`get_chain`): `if not hasattr(self, 'bptrans'): self.load_estim(...)`. -/
def chain (G : P → Except PyErr F) (r : Run) (s : St P F) : St P F × Option PyErr :=
  match s.fns with
  | some _ => (s, none)
  | none => prep G r s

/-- `mod.save()` and `DSGE.load` (clsmethods.py:123-148, parser.py:564-630): `fdict` is kept, other attributes are those of the parsed model. -/
def reload (s : St P F) : St P F := { s with prior := s.file, fns := none, ndim := false }

/-- What happens to a model. -/
inductive Op (P : Type)
  | edit (f : P → P)
  | prep (r : Run)
  | ensure (r : Run)
  | chain (r : Run)
  | reload

def step (G : P → Except PyErr F) (s : St P F) : Op P → St P F
  | .edit f => { s with prior := f s.prior }
  | .prep r => (prep G r s).1
  | .ensure r => (ensure G r s).1
  | .chain r => (chain G r s).1
  | .reload => reload s

def run (G : P → Except PyErr F) (ops : List (Op P)) (s : St P F) : St P F := ops.foldl (step G) s

/-- mpile.py:68-72, with `check_likelihood=False`: the distributions that `prior_sampler` draws from. `np.any` of frozen distributions is true. -/
def drawsFrom (G : P → Except PyErr F) (s : St P F) : Except PyErr F :=
  match s.frozen with
  | some f => .ok f
  | none => G s.prior

/-- mpile.py:374-376: the bounds in `box_check`; mpile.py:236 (`init`). -/
def bounds (s : St P F) : Except PyErr F :=
  match s.frozen with
  | some f => .ok f
  | none => .error .keyError

/-- mpile.py:210-233 (`prior_mean`, `adj_prior_mean`): what the means are computed from. -/
def meansOf (s : St P F) : P := s.prior

/-- The prior in `self.lprob` and `self.lprior`. -/
def density (s : St P F) : Except PyErr F :=
  match s.fns with
  | some f => .ok f
  | none => .error .attributeError

end Pydsge.PriorHist
