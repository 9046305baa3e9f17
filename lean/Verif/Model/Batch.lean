import Verif.Model.Py
import Mathlib.Logic.Function.Basic

/-!
# `irfs` and `simulate` for several parameter sets (tools.py:211-338, 419-472)

Both pickle the model object once, and every run works on its own unpickled copy.  The model is a heap of objects, so that
sharing would be visible.  What an object contains, what `set_par` does to it (also when it fails half way) and what the
simulation loop returns are arbitrary functions of the contents.
-/

set_option autoImplicit false

namespace Pydsge.Batch

variable {σ P R : Type}

/-- Objects by address; `next` is the next free address. -/
structure Heap (σ : Type) where
  cell : Nat → Option σ
  next : Nat

/-- What the methods do to the contents of an object. -/
structure Methods (σ P R : Type) where
  /-- `np.any(par)` (tools.py:241): whether a parameter set counts as given -/
  given : P → Bool
  /-- `pelf.set_par(par, **args)`: new contents and the exception raised, if any -/
  setPar : P → σ → σ × Option PyErr
  /-- the loop over periods on the contents of `pelf` -/
  run : σ → σ × Except PyErr R

/-- `dill.loads(pickled)`: a new object with the pickled contents. -/
def loads (pick : σ) (h : Heap σ) : Nat × Heap σ :=
  (h.next, ⟨Function.update h.cell h.next (some pick), h.next + 1⟩)

/-- Overwrite the contents of an object. -/
def Heap.put (h : Heap σ) (a : Nat) (x : σ) : Heap σ := ⟨Function.update h.cell a (some x), h.next⟩

/-- tools.py:233-331 `runner` of `irfs`: `none` stands for the result full of NaN with flags 4 (l.244-248), which is returned if
`set_par` raises `ValueError`. -/
def runner (M : Methods σ P R) (pick : σ) (h : Heap σ) (par : Option P) : Heap σ × Except PyErr (Option R) :=
  let (pelf, h1) := loads pick h
  let simulate (h : Heap σ) (x : σ) : Heap σ × Except PyErr (Option R) :=
    match M.run x with
    | (x', .error e) => (h.put pelf x', .error e)
    | (x', .ok r) => (h.put pelf x', .ok (some r))
  match par with
  | none => simulate h1 pick
  | some p =>
    if M.given p then
      match M.setPar p pick with
      | (x, none) => simulate (h1.put pelf x) x
      | (x, some .valueError) => (h1.put pelf x, .ok none)
      | (x, some e) => (h1.put pelf x, .error e)
    else simulate h1 pick

/-- The runs in the order in which the workers happen to process them; results are stored under their index. -/
def runAll (M : Methods σ P R) (pick : σ) (pars : Nat → Option P) :
    List Nat → Heap σ → (Nat → Option (Except PyErr (Option R))) → Heap σ × (Nat → Option (Except PyErr (Option R)))
  | [], h, res => (h, res)
  | i :: is, h, res =>
    let (h', r) := runner M pick h (pars i)
    runAll M pick pars is h' (Function.update res i (some r))

/-- Consume the results in order: the first exception is raised (an absent result cannot be waited for). -/
def collect (res : Nat → Option (Except PyErr (Option R))) : List Nat → Except PyErr (List (Option R))
  | [] => .ok []
  | i :: is =>
    match res i with
    | none => .error .exception
    | some (.error e) => .error e
    | some (.ok r) =>
      match collect res is with
      | .error e => .error e
      | .ok rs => .ok (r :: rs)

/-- tools.py:211-338: `irfs` of the object at address `self` for a list of parameter sets, where the runs are executed in the
order `sched`. -/
def irfsMany (M : Methods σ P R) (self : Nat) (h : Heap σ) (pars : List P) (sched : List Nat) :
    Heap σ × Except PyErr (List (Option R)) :=
  match h.cell self with
  | none => (h, .error .nameError)
  | some pick =>
    let (h', res) := runAll M pick (fun i => pars[i]?) sched h (fun _ => none)
    (h', collect res (List.range pars.length))

end Pydsge.Batch
