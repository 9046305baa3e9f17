import Verif.Model.Params

/-!
# Which arrays the model shares with its user (mpile.py:92-359, estimation.py:141, mcmc.py:173)

The model keeps the arrays `fdict["mode_x"]` and `fdict["init_value"]`; `get_par` may return one of them, or an array that was passed to it,
instead of a new array.  Arrays are cells of a memory; what `get_par` and `set_par` compute from the contents is `Params.getPar` and
`Params.setPar`.  `self.par` and `self.par_fix` are held by value here: `gen_sys_from_yaml` makes a copy of what it is given (gensys.py:114), and
`get_par` reads them through copies only (l.146-147, 248-250, 253); that `self.par` may be the same array as `self.par_fix` (l.194-195) shows only if a
user writes into the attribute.
-/

set_option autoImplicit false

namespace Pydsge.Alias

open Params

variable {K PP VV HX LS TT QQ : Type}

/-- Arrays by address; `next` is the first free address.  An entry may be `None` (the initial values of the prior section). -/
structure Mem (K : Type) where
  arr : Nat → List (Option K)
  next : Nat

def Mem.alloc (m : Mem K) (v : List (Option K)) : Nat × Mem K := (m.next, ⟨Function.update m.arr m.next v, m.next + 1⟩)

def Mem.put (m : Mem K) (a : Nat) (v : List (Option K)) : Mem K := ⟨Function.update m.arr a v, m.next⟩

/-- The model, its references, the memory, and the arrays that the user holds. -/
structure State (K PP VV HX LS TT QQ : Type) where
  mem : Mem K
  ob : Obj K PP VV HX LS TT QQ
  mode : Option Nat
  init : Option Nat
  owned : List Nat

def nums (v : List (Option K)) : List K := v.filterMap id

/-- The model with the contents of its arrays. -/
def State.view (s : State K PP VV HX LS TT QQ) : Obj K PP VV HX LS TT QQ :=
  { s.ob with modeX := s.mode.map fun a => nums (s.mem.arr a), initValue := s.init.map s.mem.arr }

/-- The argument `dummy`; arrays are passed by reference. -/
inductive Arg
  | none
  | str (s : String)
  | arr (a : Nat)

def Arg.read (m : Mem K) : Arg → Dummy K
  | .none => .none
  | .str s => .str s
  | .arr a => .vec (nums (m.arr a))

/-- An array can only be passed by someone who holds it. -/
def Arg.held (owned : List Nat) : Arg → Bool
  | .arr a => a ∈ owned
  | _ => true

/-- mpile.py:182-190: `best` is the stored mode, or else the stored initial values. -/
def State.best (s : State K PP VV HX LS TT QQ) : Option Nat :=
  match s.mode with
  | some a => some a
  | none => s.init

/-- Which existing array `get_par` returns, if it does not make a new one: `par_cand` (l.153-245) with `full=False`, unless it is multiplied by
noise (l.265-268).  `ok` tells whether `np.array(pars)[self.prior_arg]` works (l.154-156). -/
def returned (D : Decl K) (s : State K PP VV HX LS TT QQ) (ok : Bool) (arg : Arg) (full : Bool) (nsamples : Nat) : Option Nat :=
  if full then none
  else
    match arg with
    | .none => if nsamples > 1 then none else if ok then none else s.best
    | .arr a => if nsamples > 1 then none
        else if (nums (s.mem.arr a)).length = D.parFix.length then (match D.prior with
          | none => some a -- `dummy[None]` is a view
          | some _ => none)
        else some a
    | .str n =>
      if n ∈ D.names ∨ n ∈ D.pfNames ∨ n = "cov_mat" then none
      else if nsamples > 1 then none
      else if n = "best" then s.best
      else if isMode n then s.mode
      else if n = "init" then s.init
      else none

/-- The numbers of a result, as one array. -/
def contents : ParVal K QQ → List K
  | .scalar x => [x]
  | .vec v => v
  | .cand (.vec v) => v
  | .cand (.wrapped v) => v
  | .cand (.mat m) => m.flatten
  | .mat m => m.flatten
  | .cov _ => []

section
variable [Field K] [LinearOrder K]

/-- mpile.py:235-239: missing initial values are filled in where they are stored. -/
def writeBack (s : State K PP VV HX LS TT QQ) (ob : Obj K PP VV HX LS TT QQ) : State K PP VV HX LS TT QQ :=
  { s with
    ob := ob
    mem := match s.init, ob.initValue with
      | some a, some v => s.mem.put a v
      | _, _ => s.mem }

/-- mpile.py:92-269 `get_par`: the new state, the result, and the array it is in. -/
def getParA (S : Solver K PP VV HX LS TT QQ) (D : Decl K) (dr : Draws K) (g : GenArgs) (s : State K PP VV HX LS TT QQ) (arg : Arg)
    (npar : Option (List K)) (full : Bool) (nsamples : Nat) : State K PP VV HX LS TT QQ × Except PyErr (ParVal K QQ × Nat) :=
  let (ob, res) := getPar S D dr g s.view (arg.read s.mem) npar full nsamples
  let ok := match startPars S D g s.view npar with
    | (_, .ok pars) => (takePrior D pars).toOption.isSome
    | (_, .error _) => false
  let s1 := writeBack s ob
  match res with
  | .error e => (s1, .error e)
  | .ok v =>
    match returned D s ok arg full nsamples with
    | some a => ({ s1 with owned := a :: s1.owned }, .ok (v, a))
    | none =>
      let (a, m) := s1.mem.alloc ((contents v).map some)
      ({ s1 with mem := m, owned := a :: s1.owned }, .ok (v, a))

/-- mpile.py:277-359 `set_par`; its result is that of `get_par(self)`. -/
def setParA (S : Solver K PP VV HX LS TT QQ) (D : Decl K) (dr : Draws K) (g : GenArgs) (sq : QQ → QQ) (s : State K PP VV HX LS TT QQ) (arg : Arg)
    (x : Option K) : State K PP VV HX LS TT QQ × Except PyErr (ParVal K QQ × Nat) :=
  let (ob, res) := setPar S D dr g sq s.view (arg.read s.mem) x
  let s1 := writeBack s ob
  match res with
  | .error e => (s1, .error e)
  | .ok v =>
    let (a, m) := s1.mem.alloc ((contents v).map some)
    ({ s1 with mem := m, owned := a :: s1.owned }, .ok (v, a))

/-- What happens to a model: calls, and what the user does with own arrays. -/
inductive Ev (K : Type)
  | get (arg : Arg) (npar : Option (List K)) (full : Bool) (nsamples : Nat) (g : GenArgs)
  | set (arg : Arg) (x : Option K) (g : GenArgs)
  /-- estimation.py:137-141: `prep_estim` stores the initial values of the prior section in a new array -/
  | prep (init : List (Option K))
  /-- mcmc.py:171-173: `mcmc` stores the mode in a new array -/
  | mcmc (mode : List K)
  /-- the user makes an array -/
  | make (v : List K)
  /-- the user writes into an array that the user holds -/
  | write (a : Nat) (j : Nat) (x : K)

def step (S : Solver K PP VV HX LS TT QQ) (D : Decl K) (dr : Draws K) (sq : QQ → QQ) (s : State K PP VV HX LS TT QQ) :
    Ev K → State K PP VV HX LS TT QQ
  | .get arg npar full n g => if arg.held s.owned then (getParA S D dr g s arg npar full n).1 else s
  | .set arg x g => if arg.held s.owned then (setParA S D dr g sq s arg x).1 else s
  | .prep v => { s with mem := (s.mem.alloc v).2, init := some s.mem.next, ob := { s.ob with ndim := some v.length } }
  | .mcmc v => { s with mem := (s.mem.alloc (v.map some)).2, mode := some s.mem.next }
  | .make v => { s with mem := (s.mem.alloc (v.map some)).2, owned := s.mem.next :: s.owned }
  | .write a j x => if a ∈ s.owned then { s with mem := s.mem.put a ((s.mem.arr a).set j (some x)) } else s

end
end Pydsge.Alias
