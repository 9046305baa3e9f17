import Verif.Model.Stats

/-!
# `gfevd` from its arguments to its result (stats.py:58-121)

`Model/Stats` starts after the drawing of the sample; here are the preparation of the arrays, the drawing and the parameters. Arrays with two or
three axes are lists of rows or lists of lists of rows; printing and labels are left out.
-/

set_option autoImplicit false

namespace Pydsge.Stats

open Matrix Pydsge.Engine Pydsge.GenSys Pydsge.Tools

variable {z ε p o K : Type} [Fintype z] [Fintype ε] [Fintype p] [Fintype o] [DecidableEq z] [DecidableEq ε] [DecidableEq p]
  [Field K] [LinearOrder K]

/-- An array with two or three axes, by rows. -/
inductive Arr (ρ : Type)
  | two (rows : List ρ)
  | three (samples : List (List ρ))

/-- The argument `eps_dict`; `none`: there is no entry of that name. A row of `pars` is a parameter vector or `None`. -/
structure EpsDict (X R π : Type) where
  means : Option (Arr X)
  pars : Option (List (Option π))
  resid : Option (Arr R)

/-- What `extract` returns (filtering.py:482, 495): the entries `pars`, `init`, `resid` and `flags`. -/
structure Extracted (X R π φ : Type) where
  pars : List (Option π)
  init : List X
  resid : List (List R)
  flags : List φ

/-- ... seen from `gfevd`. -/
def Extracted.dict {X R π φ : Type} (e : Extracted X R π φ) : EpsDict X R π := ⟨none, some e.pars, some (.three e.resid)⟩

/-- stats.py:72-75, 84-85: the states, without those of the last period of each sample, one after the other. -/
def flatStates {X : Type} : Arr X → List X
  | .two rows => rows.dropLast
  | .three samples => (samples.map List.dropLast).flatten

/-- stats.py:80-81 `pars.repeat(resids.shape[1], axis=0)`. -/
def flatPars {R π : Type} (pars : List π) : Arr R → List π
  | .two _ => pars
  | .three samples => pars.flatMap (List.replicate ((samples.head?.map List.length).getD 0))

/-- stats.py:82-83. -/
def flatResid {R : Type} : Arr R → List R
  | .two rows => rows
  | .three samples => samples.flatten

/-- `a[draw]`. -/
def takeAt {α : Type} (a : List α) (draw : List Nat) : Except PyErr (List α) :=
  draw.mapM fun i => match a[i]? with
    | some x => .ok x
    | none => .error .indexError

/-- stats.py:72-92: the sample. `rng N n` is `np.random.choice(np.arange(N), n, replace=False)` after the seed has been set; it raises if `n`
exceeds `N`. -/
def gfevdSample {X R π : Type} (rng : Nat → Nat → List Nat) (nsamples : Option Nat) (d : EpsDict X R π) :
    Except PyErr (List (R × X × Option π)) :=
  match d.means with
  | none => .error .keyError
  | some means =>
    match d.pars with
    | none => .error .keyError
    | some pars =>
      match d.resid with
      | none => .error .keyError
      | some resid =>
        let resids := flatResid resid
        -- `nsamples or resids.shape[0]`: zero is not a number of samples
        let n := match nsamples with
          | some (n + 1) => n + 1
          | _ => resids.length
        if resids.length < n then .error .valueError
        else
          let draw := rng resids.length n
          match takeAt resids draw with
          | .error e => .error e
          | .ok rs =>
            match takeAt (flatStates means) draw with
            | .error e => .error e
            | .ok xs =>
              match takeAt (flatPars pars resid) draw with
              | .error e => .error e
              | .ok ps => .ok (rs.zip (xs.zip ps))

/-- stats.py:94-111: the loop over the sample. `M` is the object, `sol` its solution; `setPar` may fail and leaves an object in any case. -/
def gfevdLoop {M π : Type} (sol : M → Model z ε p o K) (setPar : M → π → M × Option PyErr) (shocks : List ε) (linear : Bool)
    (horizon : Nat) : List ((ε → K) × (p ⊕ z → K) × Option π) → M → (ε → p ⊕ z → K) → M × Except PyErr (ε → p ⊕ z → K)
  | [], m, gis => (m, .ok gis)
  | (r, x, par) :: ds, m, gis =>
    match (match par with
      | none => (m, none)
      | some q => setPar m q) with
    | (m, some e) => (m, .error e)
    | (m, none) =>
      match addShocks ⟨sol m, x, r⟩ linear horizon shocks gis with
      | .error e => (m, .error e)
      | .ok gis => gfevdLoop sol setPar shocks linear horizon ds m gis

/-- stats.py:58-121. -/
def gfevdCall {M π : Type} (sol : M → Model z ε p o K) (setPar : M → π → M × Option PyErr) (shocks : List ε)
    (rng : Nat → Nat → List Nat) (linear : Bool) (horizon : Nat) (nsamples : Option Nat) (d : EpsDict (p ⊕ z → K) (ε → K) π) (m : M) :
    M × Except PyErr (ε → p ⊕ z → Option K) :=
  match gfevdSample rng nsamples d with
  | .error e => (m, .error e)
  | .ok sample =>
    match gfevdLoop sol setPar shocks linear horizon sample m 0 with
    | (m, .error e) => (m, .error e)
    | (m, .ok gis) => (m, .ok fun e v => fdiv (gis e v) (∑ e', gis e' v))

end Pydsge.Stats
