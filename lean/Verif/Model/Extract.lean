import Verif.Model.Params

/-!
# `extract` for several parameter vectors and seeds (pydsge/filtering.py:346-497)

Contracts of `grgrlib`: `serializer(method)` is a function that calls the method, in the calling process on the object itself, in a worker
process on the copy that the worker has (the copies are made when the workers start, that is when `imap` is called); `map2arr` leaves out
`None` and stacks the entries of the remaining tuples.  What the filter and the smoother do with a model and a seed is a parameter (`run`);
for one sample see `Model/Filter.lean`.
-/

set_option autoImplicit false

namespace Pydsge.Extract

open Pydsge.Params

variable {K PP VV HX LS TT QQ Seed R : Type} [Field K] [LinearOrder K]

/-- The argument `sample`. -/
inductive Sample (K : Type)
  | none
  | one (v : List K)
  | many (vs : List (List K))

/-- filtering.py:346-353: the list of parameter vectors; `sample[0]` (filtering.py:394) raises for an array without rows. -/
def samples (cur : Option (List K)) : Sample K → Except PyErr (List (List K))
  | .none => match cur with
    | none => .error .attributeError
    | some v => .ok [v]
  | .one v => .ok [v]
  | .many [] => .error .indexError
  | .many (v :: vs) => .ok (v :: vs)

/-- filtering.py:410: `[(x, y) for x in sample for y in seeds]`. -/
def tasks (vs : List (List K)) (seeds : List Seed) : List (List K × Seed) := vs.flatMap fun x => seeds.map fun y => (x, y)

/-- filtering.py:412-472: `runner`, on the object that the process has. -/
def runner (S : Solver K PP VV HX LS TT QQ) (D : Decl K) (dr : Draws K) (g : GenArgs) (sq : QQ → QQ)
    (run : Attrs K PP VV HX LS TT QQ → Seed → Except PyErr (Option R)) (o : Obj K PP VV HX LS TT QQ) (t : List K × Seed) :
    Obj K PP VV HX LS TT QQ × Except PyErr (Option (List K × R)) :=
  match setPar S D dr g sq o (.vec t.1) none with
  | (o, .error e) => (o, .error e)
  | (o, .ok _) => (o, match run o.a t.2 with
    | .error e => .error e
    | .ok none => .ok none
    | .ok (some r) => .ok (some (t.1, r)))

/-- `self.mapper` is `map` (estimation.py:287): the tasks are done one after the other on `self`, until one raises. -/
def runMap (S : Solver K PP VV HX LS TT QQ) (D : Decl K) (dr : Draws K) (g : GenArgs) (sq : QQ → QQ)
    (run : Attrs K PP VV HX LS TT QQ → Seed → Except PyErr (Option R)) (o : Obj K PP VV HX LS TT QQ) :
    List (List K × Seed) → Obj K PP VV HX LS TT QQ × Except PyErr (List (Option (List K × R)))
  | [] => (o, .ok [])
  | t :: ts =>
    match runner S D dr g sq run o t with
    | (o, .error e) => (o, .error e)
    | (o, .ok r) =>
      match runMap S D dr g sq run o ts with
      | (o, .error e) => (o, .error e)
      | (o, .ok rs) => (o, .ok (r :: rs))

/-- `self.mapper` is `pool.imap` (estimation.py:285): task `i` is done by worker `assign i`, in the order `order`; every worker starts with a
copy of `self`. -/
def runPool (S : Solver K PP VV HX LS TT QQ) (D : Decl K) (dr : Draws K) (g : GenArgs) (sq : QQ → QQ)
    (run : Attrs K PP VV HX LS TT QQ → Seed → Except PyErr (Option R)) (ts : List (List K × Seed)) (assign : Nat → Nat) :
    List Nat → (Nat → Obj K PP VV HX LS TT QQ) → (Nat → Option (Except PyErr (Option (List K × R)))) →
      Nat → Option (Except PyErr (Option (List K × R)))
  | [], _, res => res
  | i :: is, ws, res =>
    match ts[i]? with
    | none => runPool S D dr g sq run ts assign is ws res
    | some t =>
      let (o, r) := runner S D dr g sq run (ws (assign i)) t
      runPool S D dr g sq run ts assign is (Function.update ws (assign i) o) (Function.update res i (some r))

/-- Reading the results of `imap` in the order of the tasks; the first exception is raised. -/
def gather {α : Type} : List (Except PyErr α) → Except PyErr (List α)
  | [] => .ok []
  | .error e :: _ => .error e
  | .ok a :: rs =>
    match gather rs with
    | .error e => .error e
    | .ok as => .ok (a :: as)

/-- filtering.py:482: `pars, init, resid, flags = map2arr(res)`. -/
def stack {α : Type} (rs : List (Option α)) : Except PyErr (List α) :=
  match rs.filterMap id with
  | [] => .error .valueError
  | l => .ok l

/-- The object and the result. `pool`: how the tasks are distributed, or `none` for `map`; `kalman`: with the Kalman filter (filtering.py:370-378:
one seed, and always `map`). `rng n` are the `n` seeds. -/
def extract (S : Solver K PP VV HX LS TT QQ) (D : Decl K) (dr : Draws K) (g : GenArgs) (sq : QQ → QQ)
    (run : Attrs K PP VV HX LS TT QQ → Seed → Except PyErr (Option R)) (rng : Nat → List Seed) (kalman : Bool)
    (pool : Option ((Nat → Nat) × List Nat)) (o : Obj K PP VV HX LS TT QQ) (sample : Sample K) (nsamples : Nat) :
    Obj K PP VV HX LS TT QQ × Except PyErr (List (List K × R)) :=
  match samples o.a.par sample with
  | .error e => (o, .error e)
  | .ok vs =>
    let ts := tasks vs (rng (if kalman then 1 else nsamples))
    match (if kalman then none else pool) with
    | none =>
      match runMap S D dr g sq run o ts with
      | (o, .error e) => (o, .error e)
      | (o, .ok rs) => (o, stack rs)
    | some (assign, order) =>
      let res := runPool S D dr g sq run ts assign order (fun _ => o) (fun _ => none)
      match gather ((List.range ts.length).map fun i => match res i with
          | some r => r
          | none => .error .uninit) with
      | .error e => (o, .error e)
      | .ok rs => (o, stack rs)

end Pydsge.Extract
