import Verif.Model.Tools

/-!
# `mask` and `shock2state` (tools.py:357-383) and how `simulate` applies a mask (tools.py:433-434)
-/

set_option autoImplicit false

namespace Pydsge.Mask

open Pydsge.Tools

variable {K : Type} [Field K] [LinearOrder K]

/-- A data frame: labels of the columns, number of rows, entries (`none` is NaN; entries outside are irrelevant). -/
structure Frame (K : Type) where
  cols : List String
  rows : Nat
  val : Nat → Nat → Option K

/-- `dict(zip(keys, values))`, looked up; a later pair overwrites. -/
def zipDict (keys values : List String) (k : String) : Option String := ((keys.zip values).reverse.lookup k)

/-- tools.py:367-383 `mask`, for data with the columns `cols` and `rows` rows: all entries NaN, columns renamed by
`dict(zip(observables, shocks))` (labels that are no keys stay), the last row dropped (`[:-1]`). -/
def mask (observables shocks cols : List String) (rows : Nat) : Frame K :=
  ⟨cols.map fun c => (zipDict observables shocks c).getD c, rows - 1, fun _ _ => none⟩

/-- pandas' `frame[name] = values` (by row): all columns with this label are set; if there is none, a column is appended. -/
def setCol (f : Frame K) (name : String) (v : Nat → Option K) : Frame K :=
  if name ∈ f.cols then ⟨f.cols, f.rows, fun i j => if f.cols[j]? = some name then v i else f.val i j⟩
  else ⟨f.cols ++ [name], f.rows, fun i j => if j = f.cols.length then v i else f.val i j⟩

/-- numpy's rule for one axis of two arrays. -/
def bcast (a b : Nat) : Except PyErr Nat :=
  if a = b then .ok a else if a = 1 then .ok b else if b = 1 then .ok a else .error .valueError

/-- Index into an axis of length `n` that has been broadcast. -/
def bidx (n i : Nat) : Nat := if n = 1 then 0 else i

/-- A two-dimensional array. -/
structure Arr (K : Type) where
  rows : Nat
  cols : Nat
  val : Nat → Nat → K

/-- tools.py:433-434: `np.where(np.isnan(mask), eps, operation(np.array(mask), eps))`. -/
def applyFrame (op : K → K → K) (f : Frame K) (eps : Arr K) : Except PyErr (Arr K) :=
  match bcast f.rows eps.rows with
  | .error e => .error e
  | .ok r =>
    match bcast f.cols.length eps.cols with
    | .error e => .error e
    | .ok c => .ok ⟨r, c, fun i j =>
        applyMask op (f.val (bidx f.rows i) (bidx f.cols.length j)) (eps.val (bidx eps.rows i) (bidx eps.cols j))⟩

/-- tools.py:357-364 `shock2state`: `state[-dimeps:]` is a view, its entry for the shock is set. -/
def shock2state (shocks : List String) (dimq : Nat) (name : String) (size : K) : Except PyErr (List K) :=
  let state := List.replicate dimq (0 : K)
  let view := sliceFrom state (-(shocks.length : Int))
  match shocks.idxOf? name with
  | none => .error .valueError
  | some i => .ok (state.take (state.length - view.length) ++ view.set i size)

end Pydsge.Mask
