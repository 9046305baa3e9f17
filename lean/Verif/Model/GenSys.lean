import Verif.Model.Engine

/-!
# Model of `gen_sys` (pydsge/gensys.py:178-394)

Variables are elements of a finite type `ν`, shocks of `ε`, model equations of `E` (one fewer than variables), observables
of `o`.  Boolean masks over the stacked vector are represented by a `Layout`: index types for the hybrid variables (`H`), the
states (`z`, the non-shock entries of `q`) and the controls (`p`) together with their positions.  The order within each group
is abstracted from.
-/

set_option autoImplicit false

namespace Pydsge.GenSys

open Matrix Pydsge.Engine

variable {E ν ε o K : Type} [Fintype E] [Fintype ν] [Fintype ε] [Fintype o]
  [DecidableEq E] [DecidableEq ν] [DecidableEq ε] [Field K] [LinearOrder K]

/-- The arguments of `gen_sys` that describe the model (gensys.py:178-195), with `const_var` and `x_bar` of `self`. -/
structure Input (E ν ε o K : Type) where
  AA0 : Matrix E ν K
  BB0 : Matrix E ν K
  CC0 : Matrix E ν K
  DD0 : Matrix E ε K
  fb0 : ν → K
  fc0 : ν → K
  fd0 : Option (ε → K)
  ZZ0 : Matrix o ν K
  ZZ1 : o → K
  cvar : ν
  xbar : K

/-- `fast0(x)` for one number (grgrlib): `abs(x) < tol`. -/
def fast0 (tol x : K) : Prop := |x| < tol

/-- `fast0(A, 0)` for one column: all entries are small. -/
def fast0Col {r c : Type} (tol : K) (A : Matrix r c K) (j : c) : Prop := ∀ i, |A i j| < tol

/-- gensys.py:251. -/
def fcN (m : Input E ν ε o K) (v : ν) : K := -m.fc0 v / m.fb0 m.cvar

/-- gensys.py:252. -/
def fbN (m : Input E ν ε o K) (v : ν) : K := -m.fb0 v / m.fb0 m.cvar

/-- gensys.py:262 `inall`: variables that appear both with a lead and with a lag. -/
def inall (tol : K) (m : Input E ν ε o K) (v : ν) : Prop := ¬ fast0Col tol m.AA0 v ∧ ¬ fast0Col tol m.CC0 v

/-- Rows of the augmented system: model equations, definitions of the auxiliary lags, shock rows, constraint. -/
abbrev Rows (E H ε : Type) := ((E ⊕ H) ⊕ ε) ⊕ Unit

/-- Columns of the augmented system (y-space, gensys.py:262, 289-291): variables, auxiliary lags, shocks. -/
abbrev Cols (ν H ε : Type) := (ν ⊕ H) ⊕ ε

section Aug
variable {H : Type} [DecidableEq H] (tol : K) (m : Input E ν ε o K) (hyb : H → ν) [DecidablePred (inall tol m)]

/-- gensys.py:270, 289: `AA0` padded with zeros. -/
def AA1 : Matrix ((E ⊕ H) ⊕ ε) (Cols ν H ε) K
  | .inl (.inl e), .inl (.inl v) => m.AA0 e v
  | _, _ => 0

/-- gensys.py:271, 280, 281, 290: `BB0` with the rows `v_lag - v = 0` and the identity for the shocks. -/
def BB1 : Matrix ((E ⊕ H) ⊕ ε) (Cols ν H ε) K
  | .inl (.inl e), .inl (.inl v) => m.BB0 e v
  | .inl (.inr h), .inl (.inr h') => if h = h' then 1 else 0
  | .inl (.inr h), .inl (.inl v) => if hyb h = v then -1 else 0
  | .inr e, .inr e' => if e = e' then 1 else 0
  | _, _ => 0

/-- gensys.py:272, 282, 283, 291: `CC0` with the columns of hybrid variables moved to their auxiliary variables, and `DD0`
in the shock columns. -/
def CC1 : Matrix ((E ⊕ H) ⊕ ε) (Cols ν H ε) K
  | .inl (.inl e), .inl (.inl v) => if inall tol m v then 0 else m.CC0 e v
  | .inl (.inl e), .inl (.inr h) => m.CC0 e (hyb h)
  | .inl (.inl e), .inr e' => m.DD0 e e'
  | _, _ => 0

/-- gensys.py:274, 292: `fb0` in y-space. -/
def fbY : Cols ν H ε → K
  | .inl (.inl v) => fbN m v
  | _ => 0

/-- gensys.py:275, 293-296: `fc0` in y-space.  Note the minus sign that only the branch with `fd0` has. -/
def fcY : Cols ν H ε → K
  | .inl (.inl v) => match m.fd0 with
    | some _ => -(fcN m v)
    | none => fcN m v
  | .inl (.inr _) => 0
  | .inr e => match m.fd0 with
    | some fd => -(fd e)
    | none => 0

/-- gensys.py:301. -/
def inq (y : Cols ν H ε) : Prop := ¬ fast0Col tol (CC1 tol m hyb) y ∨ ¬ fast0 tol (fcY (H := H) m y)

/-- gensys.py:302. -/
def inp (y : Cols ν H ε) : Prop :=
  (¬ fast0Col tol (AA1 (H := H) m) y ∨ ¬ fast0Col tol (BB1 m hyb) y) ∧ ¬ inq tol m hyb y

/-- gensys.py:323-328: the matrices with the row of the constraint: unconstrained (`U`) and restricted (`R`) regime. -/
def AAc : Matrix (Rows E H ε) (Cols ν H ε) K
  | .inl r, y => AA1 m r y
  | .inr _, _ => 0

def BBU : Matrix (Rows E H ε) (Cols ν H ε) K
  | .inl r, y => BB1 m hyb r y
  | .inr _, y => fbY m y

def CCU : Matrix (Rows E H ε) (Cols ν H ε) K
  | .inl r, y => CC1 tol m hyb r y
  | .inr _, y => fcY m y

def BBR : Matrix (Rows E H ε) (Cols ν H ε) K
  | .inl r, y => BB1 m hyb r y
  | .inr _, y => if y = .inl (.inl m.cvar) then -1 else 0

def CCR : Matrix (Rows E H ε) (Cols ν H ε) K
  | .inl r, y => CC1 tol m hyb r y
  | .inr _, _ => 0

end Aug

/-- How the masks split the stacked vector (gensys.py:262, 301, 302, 332-334): `hyb` enumerates the hybrid variables, `zi` the
states and `pi` the controls (names in `svv` and `cvv`).  All shocks are in `q` (otherwise the code's `[:-dimeps]` slices do
not cut at the shocks; such models are not covered), and rows and columns of the reduced system are equally many. -/
structure Layout (tol : K) (m : Input E ν ε o K) [DecidablePred (inall tol m)] (H z p : Type) [DecidableEq H] [Fintype H]
    [Fintype z] [Fintype p] where
  hyb : H → ν
  zi : z → ν ⊕ H
  pi : p → ν ⊕ H
  hyb_inj : Function.Injective hyb
  hyb_range : ∀ v, (∃ h, hyb h = v) ↔ inall tol m v
  zi_inj : Function.Injective zi
  zi_range : ∀ w, (∃ i, zi i = w) ↔ inq tol m hyb (.inl w)
  pi_inj : Function.Injective pi
  pi_range : ∀ w, (∃ i, pi i = w) ↔ inp tol m hyb (.inl w)
  shocks : ∀ e, inq tol m hyb (.inr e)
  square : Fintype.card z + Fintype.card ε + Fintype.card p = Fintype.card (Rows E H ε)

section Reduced
variable {H z p : Type} [DecidableEq H] [Fintype H] [Fintype z] [Fintype p] [DecidableEq z] [DecidableEq p]
variable {tol : K} {m : Input E ν ε o K} [DecidablePred (inall tol m)]

/-- Position of an entry of `q` (states, then shocks) in y-space. -/
def qi (lay : Layout tol m H z p) : z ⊕ ε → Cols ν H ε
  | .inl i => .inl (lay.zi i)
  | .inr e => .inr e

/-- gensys.py:346. -/
def PU (lay : Layout tol m H z p) : Matrix (Rows E H ε) ((z ⊕ ε) ⊕ p) K
  | r, .inl j => -(BBU m lay.hyb r (qi lay j))
  | r, .inr j => -(AAc (H := H) m r (.inl (lay.pi j)))

/-- gensys.py:347. -/
def MU (lay : Layout tol m H z p) : Matrix (Rows E H ε) ((z ⊕ ε) ⊕ p) K
  | r, .inl j => CCU tol m lay.hyb r (qi lay j)
  | r, .inr j => BBU m lay.hyb r (.inl (lay.pi j))

/-- gensys.py:349. -/
def PR (lay : Layout tol m H z p) : Matrix (Rows E H ε) ((z ⊕ ε) ⊕ p) K
  | r, .inl j => -(BBR m lay.hyb r (qi lay j))
  | r, .inr j => -(AAc (H := H) m r (.inl (lay.pi j)))

/-- gensys.py:350. -/
def MR (lay : Layout tol m H z p) : Matrix (Rows E H ε) ((z ⊕ ε) ⊕ p) K
  | r, .inl j => CCR tol m lay.hyb r (qi lay j)
  | r, .inr j => BBR m lay.hyb r (.inl (lay.pi j))

/-- gensys.py:351: `x_bar` in the last row. -/
def gg (m : Input E ν ε o K) : Rows E H ε → K
  | .inl _ => 0
  | .inr _ => m.xbar

/-- gensys.py:330, 377-379: `fq1, fp1, fq0`, with the coefficient of the constrained variable set to zero in `fb0`. -/
def ff (lay : Layout tol m H z p) : Fun3 (z ⊕ ε) p K where
  fq1 := fun j => if qi lay j = .inl (.inl m.cvar) then 0 else fbY (H := H) m (qi lay j)
  fp1 := fun j => if lay.pi j = .inl m.cvar then 0 else fbY (H := H) (ε := ε) m (.inl (lay.pi j))
  fq0 := fun j => fcY m (qi lay j)

/-- gensys.py:319-321, 341: the observation matrices `hx` (with the auxiliary variables padded by zeros, l.278). -/
def hx (lay : Layout tol m H z p) : Matrix o p K × Matrix o z K × (o → K) :=
  let pad : o → ν ⊕ H → K := fun i w => match w with
    | .inl v => m.ZZ0 i v
    | .inr _ => 0
  (fun i j => pad i (lay.pi j), fun i j => pad i (lay.zi j), m.ZZ1)

/-- The external routines: `scipy.linalg.rq` on `MU.T` and `MR.T` (gensys.py:354, 358) returning `(R, Q)`, and the linear
solver (l.366-373: `klein`, `speed_kills` or a supplied solution) returning `(omg, lam)` or raising. -/
structure Oracle (r q p K : Type) where
  rq : Matrix (q ⊕ p) r K → Matrix (q ⊕ p) (q ⊕ p) K × Matrix (q ⊕ p) r K
  klein : Matrix (q ⊕ p) (q ⊕ p) K → Matrix (q ⊕ p) (q ⊕ p) K → Except PyErr (Matrix p q K × Matrix q q K)

/-- gensys.py:354-361: the matrices handed to the solver and to preprocessing. -/
def sysOf (lay : Layout tol m H z p) (orc : Oracle (Rows E H ε) (z ⊕ ε) p K) : Sys (z ⊕ ε) p K :=
  let RU := (orc.rq (MU lay)ᵀ).1
  let QU := (orc.rq (MU lay)ᵀ).2
  let RR := (orc.rq (MR lay)ᵀ).1
  let QR := (orc.rq (MR lay)ᵀ).2
  { T := RUᵀ, S := QU * PU lay, W := RRᵀ, V := QR * PR lay, h := QR *ᵥ gg (H := H) m }

/-- The part of `self` that `t_func` uses: `self.precalc_mat`, `self.sys`, `self.ff`, `self.lks`, `self.hx`. -/
structure Model (z ε p o K : Type) where
  tables : Tables (z ⊕ ε) p K
  omg : Matrix p (z ⊕ ε) K
  lam : Matrix (z ⊕ ε) (z ⊕ ε) K
  xbar : K
  ff : Fun3 (z ⊕ ε) p K
  lks : Nat × Nat
  hx : Matrix o p K × Matrix o z K × (o → K)

/-- gensys.py:313-394: solve the model for given `lks`. -/
def genSys (lay : Layout tol m H z p) (orc : Oracle (Rows E H ε) (z ⊕ ε) p K) (lMax kMax : Nat)
    (sched : Nat → List Nat) : Except PyErr (Model z ε p o K) :=
  let M := sysOf lay orc
  match orc.klein M.S M.T with
  | .error e => .error e
  | .ok (omg, lam) =>
    match preprocess M (ff lay) omg lam lMax kMax sched with
    | .error e => .error e
    | .ok t => .ok ⟨t, omg, lam, m.xbar, ff lay, (lMax, kMax), hx lay⟩

end Reduced

/-- gensys.py:143-151 together with the constraint part of the parser (parser.py:270-306, 316-341): the arguments that the
YAML route hands to `gen_sys` for a model with equations `A x(+1) + B x + C x(-1) + D eps = 0` and the constraint equation
`x_c = rb x + rc x(-1) + rd eps`.  The parser stores `bb = -d(lhs - rhs)/d(x, x(-1))` and `bb_PSI = -d(lhs - rhs)/d eps`,
and gensys.py takes `fb0 = -bb[:n]`, `fc0 = -bb[n:]`, `fd0 = -bb_PSI`; also `PSI = -d(lhs - rhs)/d eps`, `DD0 = -PSI`. -/
def Input.ofYaml {E ν ε o K : Type} [DecidableEq ν] [Field K] (A B C : Matrix E ν K) (D : Matrix E ε K) (cvar : ν) (rb rc : ν → K)
    (rd : ε → K) (xbar : K) (ZZ0 : Matrix o ν K) (ZZ1 : o → K) : Input E ν ε o K where
  AA0 := A
  BB0 := B
  CC0 := C
  DD0 := D
  fb0 := fun v => (if v = cvar then 1 else 0) - rb v
  fc0 := fun v => -rc v
  fd0 := some (fun e => -rd e)
  ZZ0 := ZZ0
  ZZ1 := ZZ1
  cvar := cvar
  xbar := xbar

/-- gensys.py:215-239: the effective `l_max`, `k_max` from the arguments and the previous `self.lks` (if any).
`l_max < 2 and k_max > 0` with `k_max is None` compares `None > 0` and raises `TypeError`. -/
def newLks (lArg kArg : Option Int) (prev : Option (Int × Int)) : Except PyErr (Int × Int) :=
  let l : Except PyErr Int :=
    match lArg with
    | some l =>
      if l < 2 then
        match kArg with
        | none => .error .typeError
        | some k => .ok ((if k > 0 then 2 else l) + 1)
      else .ok (l + 1)
    | none => .ok (match prev with
      | some lk => lk.1
      | none => 3)
  let k : Int :=
    match kArg with
    | some k => k
    | none => match prev with
      | some lk => lk.2
      | none => 17
  match l with
  | .error e => .error e
  | .ok l => .ok (l, k)

/-- gensys.py:126-139: where `x_bar` comes from: the declared parameter, else the parameter function, else `-1`; positive
values raise. -/
def xbarOf (param parafunc : Option K) : Except PyErr K :=
  let x := match param with
    | some x => x
    | none => match parafunc with
      | some x => x
      | none => -1
  if x > 0 then .error .notImplemented else .ok x

end Pydsge.GenSys
