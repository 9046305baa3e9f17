/-!
# Python / numpy conventions used by the model

Exceptions are values of `PyErr`; array indexing and slicing follow Python's rules for negative indices.
-/

set_option autoImplicit false

namespace Pydsge

/-- The exceptions that the modelled code raises, plus two events that real runs do not report:
`oob` (a read outside an array in nopython numba code: undefined behaviour) and `uninit` (a read of an
`np.empty` cell that nothing has written). -/
inductive PyErr
  | linAlg            -- numpy.linalg.LinAlgError
  | uninit            -- read of an unwritten `np.empty` cell (not an exception in reality)
  | oob               -- out-of-bounds read in nopython code (not an exception in reality)
  | indexError
  | keyError
  | valueError
  | typeError
  | nameError
  | attributeError
  | syntaxError
  | notImplemented
  | importError
  | keyboardInterrupt
  | osError           -- FileNotFoundError and the like
  | assertion
  | unboundLocal
  | runtimeError
  | exception         -- a bare `Exception`
  deriving DecidableEq, Repr, Inhabited

/-- Python index `i` into an axis of length `n`: negative indices count from the end, anything else outside is
out of bounds. -/
def pyIdx (n : Nat) (i : Int) : Except PyErr Nat :=
  if 0 ≤ i ∧ i < n then .ok i.toNat
  else if i < 0 ∧ -(n : Int) ≤ i then .ok ((n : Int) + i).toNat
  else .error .oob

/-- `xs[i:]` for a Python list or 1-d array. -/
def sliceFrom {α : Type _} (xs : List α) (i : Int) : List α :=
  if 0 ≤ i then xs.drop i.toNat
  else xs.drop (xs.length - (-i).toNat)

/-- `xs[:i]` for a Python list or 1-d array. -/
def sliceTo {α : Type _} (xs : List α) (i : Int) : List α :=
  if 0 ≤ i then xs.take i.toNat
  else xs.take (xs.length - (-i).toNat)

end Pydsge
