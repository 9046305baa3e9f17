import Verif.Model.Batch
import Verif.Model.Tools

/-!
# `simulate` for several samples (pydsge/tools.py:386-485)

The heap of objects is that of `Verif.Model.Batch`.  What `set_par` does to the contents of an object is arbitrary; the solution that the contents hold is a
`Model`, and the loop over the residuals is that of `Verif.Model.Tools`.  Not modelled: the pool (see C49), messages, the stacking of the results into arrays (C139).
-/

set_option autoImplicit false

namespace Pydsge.SimMany

open Pydsge.Engine Pydsge.GenSys Pydsge.Tools Pydsge.Batch

variable {z ε p o K σ P : Type} [Fintype z] [Fintype ε] [Fintype p] [Fintype o] [DecidableEq z] [DecidableEq ε] [DecidableEq p]
  [Field K] [LinearOrder K]

/-- What `simulate` uses of the contents of an object. -/
structure Ops (σ P z ε p o K : Type) where
  /-- `self.debug |= debug` -/
  orDebug : Bool → σ → σ
  /-- `pelf.set_par(par, return_vv=True, **args)`: the new contents, and the exception if it raises -/
  setPar : P → σ → σ × Option PyErr
  /-- `pelf.vv` -/
  vv : σ → List String
  /-- the solution that `t_func` uses -/
  sol : σ → Model z ε p o K

/-- Arguments that are the same for all samples. -/
structure Args (ε K : Type) where
  mask : Option (List (ε → Option K))
  operation : K → K → K
  linear : Bool
  debug : Bool

/-- A sample: parameters, residuals, initial state. -/
abbrev Sample (P z ε p K : Type) := P × List (ε → K) × (p ⊕ z → K)

/-- tools.py:426-462: what `runner` does to the contents `x` of its copy; the mask is applied first (l.433-434).  The model is a `DSGE` object, so `pelf.set_par` is not
`None` (l.436). -/
def work (O : Ops σ P z ε p o K) (a : Args ε K) (x : σ) (arg : Sample P z ε p K) : σ × Except PyErr (SimRes z p K) :=
  let (par, eps, state) := arg
  match masked a.operation a.mask eps with
  | .error e => (x, .error e)
  | .ok eps =>
    match O.setPar par x with
    | (x, some e) => (x, .error e)
    | (x, none) =>
      let vv := O.vv x
      if vv = O.vv x then (x, simulate (O.sol x) a.linear none a.operation state eps) else (x, .error .exception)

/-- tools.py:426-462 `runner`: the copy is a new object. -/
def runner (O : Ops σ P z ε p o K) (a : Args ε K) (pick : σ) (h : Heap σ) (arg : Sample P z ε p K) : Heap σ × Except PyErr (SimRes z p K) :=
  let (pelf, h) := loads pick h
  match h.cell pelf with
  | none => (h, .error .nameError)
  | some x =>
    let (x, r) := work O a x arg
    (h.put pelf x, r)

/-- `zip(*sample)` for `sample = pars, resi, init` (tools.py:466): it ends with the shortest. -/
def zip3 {A B C : Type} : List A → List B → List C → List (A × B × C)
  | a :: as, b :: bs, c :: cs => (a, b, c) :: zip3 as bs cs
  | _, _, _ => []

/-- The runs in the order in which the workers do them (an index beyond the last sample does nothing); results are stored under their index. -/
def runAll (O : Ops σ P z ε p o K) (a : Args ε K) (pick : σ) (tasks : List (Sample P z ε p K)) :
    List Nat → Heap σ → (Nat → Option (Except PyErr (SimRes z p K))) → Heap σ × (Nat → Option (Except PyErr (SimRes z p K)))
  | [], h, res => (h, res)
  | i :: is, h, res =>
    match tasks[i]? with
    | none => runAll O a pick tasks is h res
    | some t =>
      let (h, r) := runner O a pick h t
      runAll O a pick tasks is h (Function.update res i (some r))

/-- The results in the order of the samples; the first exception is raised. -/
def collect {R : Type} (res : Nat → Option (Except PyErr R)) : List Nat → Except PyErr (List R)
  | [] => .ok []
  | i :: is =>
    match res i with
    | none => .error .exception
    | some (.error e) => .error e
    | some (.ok r) =>
      match collect res is with
      | .error e => .error e
      | .ok rs => .ok (r :: rs)

/-- tools.py:408-485 `simulate` of the object at address `self`; `sched` is the order in which the workers process the samples. -/
def simulateMany (O : Ops σ P z ε p o K) (a : Args ε K) (source : Option (SimSource (List P) (List (List (ε → K))) (List (p ⊕ z → K))))
    (pars : Option (List P)) (resid : Option (List (List (ε → K)))) (init : Option (List (p ⊕ z → K))) (sched : List Nat) (self : Nat)
    (h : Heap σ) : Heap σ × Except PyErr (List (SimRes z p K)) :=
  match argOr pars source (·.pars), argOr resid source (·.resid), argOr init source (·.init) with
  | .error e, _, _ => (h, .error e)
  | .ok _, .error e, _ => (h, .error e)
  | .ok _, .ok _, .error e => (h, .error e)
  | .ok ps, .ok rs, .ok is =>
    match h.cell self with
    | none => (h, .error .nameError)
    | some x =>
      -- l.417: written to the model itself, before it is pickled
      let x := O.orDebug a.debug x
      let h := h.put self x
      let tasks := zip3 ps rs is
      -- l.468: `total=len(source["pars"])`
      match argOr none source (·.pars) with
      | .error e => (h, .error e)
      | .ok _ =>
        let (h, res) := runAll O a x tasks sched h (fun _ => none)
        (h, collect res (List.range tasks.length))

end Pydsge.SimMany
