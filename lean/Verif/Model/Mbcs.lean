import Mathlib.Algebra.Field.Basic
import Mathlib.Algebra.BigOperators.Fin
import Mathlib.Order.Defs.LinearOrder
import Verif.Model.Py

/-!
# The measure of one main shock (stats.py:132-147)

`mbcs_index` after its first statement: `v` is `vvd`, one row per observable and one column per shock. The first statement fails for every
model with states (C78); what follows is the computation that it would start. Floats are elements of an ordered field; printing is left out.
-/

set_option autoImplicit false

namespace Pydsge.Mbcs

variable {K : Type} [Field K] [LinearOrder K]

/-- The positions of an array in the order of its memory. -/
def cells (r c : Nat) : List (Fin r × Fin c) := (List.finRange r).flatMap fun i => (List.finRange c).map fun j => (i, j)

/-- stats.py:134 `np.unravel_index(vvd.argmax(), vvd.shape)`: the first position with the largest value. -/
def pick {r c : Nat} (v : Fin (r + 1) → Fin (c + 1) → K) : Fin (r + 1) × Fin (c + 1) :=
  (cells (r + 1) (c + 1)).foldl (fun b y => if v b.1 b.2 < v y.1 y.2 then y else b) (0, 0)

/-- stats.py:135 `vvd[ind] -= 1`. -/
def minusOne {r c : Nat} (v : Fin r → Fin c → K) (ind : Fin r × Fin c) : Fin r → Fin c → K :=
  fun i j => if i = ind.1 ∧ j = ind.2 then v i j - 1 else v i j

/-- stats.py:136-137: what is added to `mbs`. -/
def added {r c : Nat} (w : Fin r → Fin c → K) (ind : Fin r × Fin c) : K :=
  (∑ j, w ind.1 j ^ 2) + (∑ i, w i ind.2 ^ 2) - w ind.1 ind.2 ^ 2

/-- stats.py:138-139: `np.delete` of the row, then of the column. -/
def drop {r c : Nat} (w : Fin (r + 1) → Fin (c + 1) → K) (ind : Fin (r + 1) × Fin (c + 1)) : Fin r → Fin c → K :=
  fun i j => w (ind.1.succAbove i) (ind.2.succAbove j)

/-- stats.py:132-139: the loop, once for every row of the array at the start; `argmax` of an empty array raises. -/
def loop : (r c : Nat) → (Fin r → Fin c → K) → K → Except PyErr K
  | 0, _, _, mbs => .ok mbs
  | _ + 1, 0, _, _ => .error .valueError
  | r + 1, c + 1, v, mbs =>
    let ind := pick v
    let w := minusOne v ind
    loop r c (drop w ind) (mbs + added w ind)

/-- stats.py:132-147; `n` is `len(self.shocks)`; a division by zero gives no number (`none`). -/
def index (n : Nat) {r c : Nat} (v : Fin r → Fin c → K) : Except PyErr (Option K) :=
  match loop r c v 0 with
  | .error e => .error e
  | .ok mbs => .ok (if (2 * ((n : K) - 1)) = 0 then none else some (mbs / (2 * ((n : K) - 1))))

end Pydsge.Mbcs
