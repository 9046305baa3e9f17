import Verif.Spec.PathEq
import Verif.Lemmas.Deriv

/-!
# Specification: a solution of the model equations from period 0 on, given values from before

`before` are the values in period -1 by name; values from further back are those of the names `v_LAG1`, `v_LAG2`, ... (the
state vector carries them under these names), and past values of a shock `s` those of `s_VAR`, `s_VAR_LAG1`, ....
-/

set_option autoImplicit false

namespace Pydsge.Spec

variable {K : Type} [Field K]

/-- `e` holds in period `t` along `p`. -/
def HoldsAt (I : Interp K) (p : Path K) (e : Eqn K) (t : Int) : Prop := e.lhs.eval I (p.at t) = e.rhs.eval I (p.at t)

/-- The past value of the variable `v` in period `-1 - n`. -/
def past (before : String → K) (v : String) : Nat → K
  | 0 => before v
  | n + 1 => before (v ++ "_LAG" ++ toString (n + 1))

/-- The path with values `x` from period 0 on, the shocks `eps` in period 0 (none later), and the given past. -/
def pathFrom (before : String → K) (x : Nat → String → K) (eps : String → K) : Path K
  | .variable, v, .ofNat t => x t v
  | .variable, v, .negSucc n => past before v n
  | .shock, s, .ofNat t => if t = 0 then eps s else 0
  | .shock, s, .negSucc n => past before (s ++ "_VAR") n

/-- The equation is linear in variables and shocks, with coefficients that depend on parameters only, and has no constant. -/
def LinearEq (I : Interp K) (e : Eqn K) : Prop := e.setEqZero.PolyForm ∧ ∃ c, e.setEqZero.AffineWith I c 0

end Pydsge.Spec
