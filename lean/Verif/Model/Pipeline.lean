import Verif.Model.Parser
import Verif.Model.GenSys

/-!
# From the text of a model to the input of `gen_sys` (parser.py:665-872, 228-352; gensys.py:143-155)
-/

set_option autoImplicit false

namespace Pydsge.Pipeline

open Parser GenSys

variable {K : Type}

/-- The declarations and equations of a model file, after `eval` has turned the text into expressions (parser.py:678-731, 768-780):
variables, shocks (`covariances`), model equations, constraint `cvar = crhs`, measurement equations. -/
structure Source (K : Type) where
  vars : List String
  shocks : List String
  eqs : List (Eqn K)
  cvar : String
  crhs : Expr K
  obs : List (Expr K)

/-- parser.py:717-731: the constraint as an equation. -/
def Source.con (src : Source K) : Eqn K := ⟨.sym (vsym src.cvar), src.crhs⟩

/-- parser.py:130-142: names of the forward looking variables of the parsed equations. -/
def fvarsOf (eqs : List (Eqn K)) : List String :=
  ((eqs.flatMap Eqn.syms).filter (fun s => s.kind = .variable ∧ 0 < s.date)).map TSym.name

/-- The model object with its matrices evaluated at one parameter vector. -/
structure Compiled (K : Type) where
  st : PState K
  mats : Mats K
  con : ConRow K
  obs : List ((String → K) × K)

section
variable [Field K]

/-- parser.py:338-352: all measurement equations, one after the other. -/
def obsRows (I : Interp K) (vars fvars : List String) : List (Expr K) → Except PyErr (List ((String → K) × K))
  | [] => .ok []
  | oe :: os =>
    match getObs I vars fvars oe with
    | .error e => .error e
    | .ok r =>
      match obsRows I vars fvars os with
      | .error e => .error e
      | .ok rs => .ok (r :: rs)

/-- parser.py:717-731 (an undeclared constrained variable raises; that the name of a parameter or shock would pass here, and fail in
gensys.py:250 instead, is not modelled), 755-872, then `get_matrices`: the constraint (l. 279-302), the equations (l. 310-333), the
measurement equations (l. 338-352). -/
def compile (ord : List (TSym × TSym) → List (TSym × TSym)) (I : Interp K) (src : Source K) : Except PyErr (Compiled K) :=
  if src.cvar ∉ src.vars then .error .syntaxError
  else
    match parseEqs ord src.vars src.shocks src.eqs with
    | .error e => .error e
    | .ok st =>
      match getConstraint I (unique st.vars) src.shocks src.con with
      | .error e => .error e
      | .ok R =>
        match getMatrices I true st.vars src.shocks st.eqs with
        | .error e => .error e
        | .ok M =>
          match obsRows I M.vars (fvarsOf st.eqs) src.obs with
          | .error e => .error e
          | .ok os => .ok ⟨st, M, R, os⟩

end

/-- How rows and columns of the arrays are numbered: `row`, `vn`, `sn`, `on` say which equation, variable, shock or observable a row or
column belongs to. In the code a column is the position in `var_ordering` or `shk_ordering`. -/
structure Labels (E ν ε o : Type) (shocks : List String) (C : Compiled K) where
  row : E ≃ Fin (C.mats.vars.length - 1)
  vn : ν ≃ {v // v ∈ C.mats.vars}
  sn : ε ≃ {s // s ∈ shocks}
  on : o ≃ Fin C.obs.length

/-- gensys.py:143-155: what `gen_sys_from_yaml` hands to `gen_sys`. -/
def inputOf [Field K] {E ν ε o : Type} {shocks : List String} {C : Compiled K} (L : Labels E ν ε o shocks C) (cv : ν) (xbar : K) :
    Input E ν ε o K where
  AA0 := fun i v => C.mats.AA (L.row i) (L.vn v)
  BB0 := fun i v => C.mats.BB (L.row i) (L.vn v)
  CC0 := fun i v => C.mats.CC (L.row i) (L.vn v)
  DD0 := fun i s => -C.mats.PSI (L.row i) (L.sn s)
  fb0 := fun v => -C.con.bb (L.vn v)
  fc0 := fun v => -C.con.bbLag (L.vn v)
  fd0 := some (fun s => -C.con.bbPSI (L.sn s))
  ZZ0 := fun i v => (C.obs[L.on i]).1 (L.vn v)
  ZZ1 := fun i => (C.obs[L.on i]).2
  cvar := cv
  xbar := xbar

end Pydsge.Pipeline
