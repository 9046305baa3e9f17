import Verif.Model.Params

/-!
# `get_par(asdict=True)` (mpile.py:246-264)

`rnd` is `np.round(·, roundto)`.  Functions of parameters are taken to be applied element by element if they are called with arrays.
-/

set_option autoImplicit false

namespace Pydsge.Params

variable {K PP VV HX LS TT QQ : Type}

/-- A value in a dictionary of parameters: a number or a whole row of an array. -/
inductive Entry (K : Type)
  | val (x : K)
  | row (v : List K)
  deriving DecidableEq

/-- `dict(zip(names, values))`: looking up a name.  The last of several equal keys counts. -/
def dictZip {β : Type} (names : List String) (vals : List β) (s : String) : Option β :=
  ((names.zip vals).reverse.find? fun q => q.1 == s).map (·.2)

/-- What `get_par(asdict=True)` returns: names of parameters give a number (or the covariance), sets give one or two dictionaries. -/
inductive DictRes (K QQ : Type)
  | plain (r : ParVal K QQ)
  | one (d : String → Option (Entry K))
  | two (d f : String → Option (Entry K))

/-- `dummy in ("prior", "post", "posterior")`. -/
def Dummy.isSample : Dummy K → Bool
  | .str s => Params.isSample s
  | _ => false

/-- `pffunc(par)` for an array: `lambdify` unpacks its argument into the parameters, so there must be as many rows as parameters.  Parameter
`i` is row `i` then, and the functions are evaluated column by column. -/
def pfRows [Zero K] (D : Decl K) (rows : List (List K)) : Except PyErr (List (List K)) :=
  if rows.length ≠ D.names.length then .error .valueError
  else
    let cols := (List.range (rows.headD []).length).map fun j => D.pf (rows.map fun r => (r[j]?).getD 0)
    .ok ((List.range D.pfNames.length).map fun k => cols.map fun c => (c[k]?).getD 0)

variable [Field K] [LinearOrder K]

/-- mpile.py:246-264, `asdict=True`. -/
def getDict (rnd : K → K) (S : Solver K PP VV HX LS TT QQ) (D : Decl K) (dr : Draws K) (g : GenArgs) (ob : Obj K PP VV HX LS TT QQ)
    (dummy : Dummy K) (npar : Option (List K)) (full : Bool) (nsamples : Nat) : Obj K PP VV HX LS TT QQ × Except PyErr (DictRes K QQ) :=
  let row (v : List K) : Entry K := .row (v.map rnd)
  if full then
    match getPar S D dr g ob dummy npar true nsamples with
    | (ob, .error e) => (ob, .error e)
    | (ob, .ok (.vec v)) => (ob, .ok (.two (dictZip D.names (v.map fun x => .val (rnd x))) (dictZip D.pfNames ((D.pf v).map fun x => .val (rnd x)))))
    | (ob, .ok (.mat rows)) =>
      match pfRows D rows with
      | .error e => (ob, .error e)
      | .ok fs => (ob, .ok (.two (dictZip D.names (rows.map row)) (dictZip D.pfNames (fs.map row))))
    | (ob, .ok r) => (ob, .ok (.plain r))
  else
    -- the noise of l.265-268 comes after the dictionary has been returned
    match getPar S D dr g ob dummy npar false (if dummy.isSample then nsamples else 1) with
    | (ob, .error e) => (ob, .error e)
    | (ob, .ok (.cand c)) =>
      match D.prior with
      | none => (ob, .error .typeError) -- the keys are arrays
      | some p =>
        match fancyGet D.names p.arg with
        | .error e => (ob, .error e)
        | .ok names =>
          (ob, .ok (.one (match c with
            | .vec v => dictZip names (v.map fun x => .val (rnd x))
            | .wrapped v => dictZip names [row v]
            | .mat m => dictZip names (m.map row))))
    | (ob, .ok r) => (ob, .ok (.plain r))

end Pydsge.Params
