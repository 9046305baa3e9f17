import Verif.Model.Tools
import Verif.Model.Estim

/-!
# Filters (pydsge/filtering.py)

`F[a:, b:]` and the like become blocks: the full state is `p ⊕ z` (controls first, then states), a column of the tables is a state or a
shock, `z ⊕ ε`. `x[:, :-neps]` is everything but the shocks; for a model without shocks that slice is empty in the code, such models are
left out (`run_filter` would need data without columns).
-/

set_option autoImplicit false

namespace Pydsge.Filter

open Matrix Pydsge.Engine Pydsge.GenSys Pydsge.Tools

variable {z ε p o K : Type} [Fintype z] [Fintype ε] [Fintype p] [Fintype o] [DecidableEq z] [DecidableEq ε] [DecidableEq p]
  [Field K] [LinearOrder K]

/-- `pmat[1, 0]`, `qmat[1, 0]`: outside the tables if `l_max = 0`. -/
def cell10 (m : Model z ε p o K) : Except PyErr (Cell (z ⊕ ε) p K) :=
  if 1 < m.tables.L ∧ 0 < m.tables.Kk then
    match m.tables.pq 1 0 with
    | none => .error .uninit
    | some c => .ok c
  else .error .indexError

/-- `np.vstack((pmat[1, 0][:, : -neps], qmat[1, 0][: -neps, : -neps]))` (filtering.py:28-29, 175-178). -/
def stackF (c : Cell (z ⊕ ε) p K) : Matrix (p ⊕ z) z K := Matrix.of fun i j => match i with
  | .inl i => c.pmat i (.inl j)
  | .inr i => c.qmat (.inl i) (.inl j)

/-- `np.vstack((pmat[1, 0][:, -neps:], qmat[1, 0][: -neps, -neps:]))` (filtering.py:31-32, 185-188). -/
def stackE (c : Cell (z ⊕ ε) p K) : Matrix (p ⊕ z) ε K := Matrix.of fun i j => match i with
  | .inl i => c.pmat i (.inr j)
  | .inr i => c.qmat (.inl i) (.inr j)

/-- `np.pad(F, ((0, 0), (dimp, 0)))` (filtering.py:179). -/
def padF (F : Matrix (p ⊕ z) z K) : Matrix (p ⊕ z) (p ⊕ z) K := Matrix.of fun i j => match j with
  | .inl _ => 0
  | .inr j => F i j

/-- `A[dimp:]` and `A[dimp:, dimp:]`. -/
def low {n : Type} (A : Matrix (p ⊕ z) n K) : Matrix z n K := A.submatrix Sum.inr id
def lowSq (A : Matrix (p ⊕ z) (p ⊕ z) K) : Matrix z z K := A.submatrix Sum.inr Sum.inr

/-- `self.filter.Q`: a covariance of the shocks, or one of the full state. -/
inductive QAttr (z ε p K : Type)
  | shocks (Q : Matrix ε ε K)
  | states (Q : Matrix (p ⊕ z) (p ⊕ z) K)

/-- The attributes of the Kalman filter. -/
structure KF (z ε p o K : Type) where
  F : Matrix (p ⊕ z) (p ⊕ z) K
  H : Matrix o (p ⊕ z) K × (o → K)
  Q : QAttr z ε p K
  P : Matrix (p ⊕ z) (p ⊕ z) K
  initCov : Option (Matrix (p ⊕ z) (p ⊕ z) K)

/-- `np.hstack((self.hx[0], self.hx[1])), self.hx[2]` (filtering.py:182). -/
def stackH (m : Model z ε p o K) : Matrix o (p ⊕ z) K × (o → K) :=
  (Matrix.of fun i j => match j with
    | .inl j => m.hx.1 i j
    | .inr j => m.hx.2.1 i j, m.hx.2.2)

/-- filtering.py:184-189: the covariance is transformed if it has as many rows as there are shocks. `same`: the positions of the full
state and of the shocks, if there are equally many. -/
def transQ (same : Option ((p ⊕ z) ≃ ε)) (E : Matrix (p ⊕ z) ε K) : QAttr z ε p K → Matrix (p ⊕ z) (p ⊕ z) K
  | .shocks Q => E * Q * Eᵀ
  | .states Q =>
    match same with
    | some e => E * Q.submatrix e.symm e.symm * Eᵀ
    | none => Q

/-- filtering.py:170-197: the set-up of the Kalman filter. `lyap A Q` is `solve_discrete_lyapunov`. -/
def setupKF (same : Option ((p ⊕ z) ≃ ε)) (lyap : Matrix z z K → Matrix z z K → Except PyErr (Matrix z z K)) (m : Model z ε p o K)
    (f : KF z ε p o K) : Except PyErr (KF z ε p o K) :=
  match cell10 m with
  | .error e => .error e
  | .ok c =>
    let F := padF (stackF c)
    let Q := transQ same (stackE c) f.Q
    match f.initCov with
    | some P => .ok ⟨F, stackH m, .states Q, P, some P⟩
    | none =>
      match lyap (lowSq F) (lowSq Q) with
      | .error e => .error e
      | .ok p4 =>
        let Fr := F.submatrix id (Sum.inr : z → p ⊕ z)
        .ok ⟨F, stackH m, .states Q, Fr * p4 * Frᵀ + Q, none⟩

/-- filtering.py:166-167: the argument `init_cov` replaces the attribute. -/
def withInit {P : Type} (arg attr : Option P) : Option P :=
  match arg with
  | some P => some P
  | none => attr

/-- filtering.py:166-197: the argument and the set-up of the Kalman filter. -/
def runSetupKF (same : Option ((p ⊕ z) ≃ ε)) (lyap : Matrix z z K → Matrix z z K → Except PyErr (Matrix z z K)) (m : Model z ε p o K)
    (arg : Option (Matrix (p ⊕ z) (p ⊕ z) K)) (f : KF z ε p o K) : Except PyErr (KF z ε p o K) :=
  setupKF same lyap m { f with initCov := withInit arg f.initCov }

/-- filtering.py:166-167, 213-235: the attributes `init_cov` and `P` of the ensemble filters; `dflt` is the result of the Lyapunov equation. -/
def runSetupEns {P : Type} (dflt : Except PyErr P) (arg attr : Option P) : Except PyErr (Option P × P) :=
  match withInit arg attr with
  | some P => .ok (some P, P)
  | none =>
    match dflt with
    | .error e => .error e
    | .ok P => .ok (none, P)

/-- A sequence of runs of an ensemble filter, with the arguments given: the attribute `init_cov` and the covariances used (a failing run stops the
sequence). -/
def runsEns {P : Type} (dflt : Except PyErr P) : Option P → List (Option P) → Except PyErr (Option P × List P)
  | attr, [] => .ok (attr, [])
  | attr, a :: as =>
    match runSetupEns dflt a attr with
    | .error e => .error e
    | .ok (attr', P) =>
      match runsEns dflt attr' as with
      | .error e => .error e
      | .ok (r, Ps) => .ok (r, P :: Ps)

/-- filtering.py:23-38 `get_p_init_lyapunov`. -/
def pInitLyapunov (lyap : Matrix z z K → Matrix z z K → Except PyErr (Matrix z z K)) (m : Model z ε p o K) (Q : Matrix ε ε K) :
    Except PyErr (Matrix (p ⊕ z) (p ⊕ z) K) :=
  match cell10 m with
  | .error e => .error e
  | .ok c =>
    let F := stackF c
    let E := stackE c
    let Q := E * Q * Eᵀ
    match lyap (low F) (lowSq Q) with
    | .error e => .error e
    | .ok p4 => .ok (F * p4 * Fᵀ + Q)

/-- filtering.py:217-226: the initial covariance of the ensemble filter in reduced form. -/
def pInitReduced (lyap : Matrix z z K → Matrix z z K → Except PyErr (Matrix z z K)) (m : Model z ε p o K) (Q : Matrix ε ε K) :
    Except PyErr (Matrix z z K) :=
  match cell10 m with
  | .error e => .error e
  | .ok c =>
    let F : Matrix z z K := c.qmat.submatrix Sum.inl Sum.inl
    let E : Matrix z ε K := c.qmat.submatrix Sum.inl Sum.inr
    lyap F (E * Q * Eᵀ)

/-! ## Extraction of shocks with the Kalman filter (filtering.py:41-57, 421-430) -/

/-- filtering.py:41-57 `get_eps_lin` for the Kalman filter. `pinv` is `np.linalg.pinv(·, rcond)`. -/
def getEpsLin (pinv : Matrix (p ⊕ z) ε K → Matrix ε (p ⊕ z) K) (F : Matrix (p ⊕ z) (p ⊕ z) K) (m : Model z ε p o K) (x xp : p ⊕ z → K) :
    Except PyErr (ε → K) :=
  match cell10 m with
  | .error e => .error e
  | .ok c => .ok (pinv (stackE c) *ᵥ (x - F *ᵥ xp))

/-- filtering.py:426-428: the loop; `cur` is `res[t]`, the list the remaining smoothed states `means[t+1:]`. Returns the path
`res[t+1:]` and the shocks. -/
def extractLoop (pinv : Matrix (p ⊕ z) ε K → Matrix ε (p ⊕ z) K) (F : Matrix (p ⊕ z) (p ⊕ z) K) (m : Model z ε p o K) :
    (p ⊕ z → K) → List (p ⊕ z → K) → Except PyErr (List (p ⊕ z → K) × List (ε → K))
  | _, [] => .ok ([], [])
  | cur, x :: xs =>
    match getEpsLin pinv F m x cur with
    | .error e => .error e
    | .ok eps =>
      match tFunc m cur eps .none true with
      | .error e => .error e
      | .ok r =>
        match extractLoop pinv F m r.state xs with
        | .error e => .error e
        | .ok (path, resid) => .ok (r.state :: path, eps :: resid)

/-- filtering.py:414-430: `extract` with the Kalman filter for one parameter vector: initial state, path and shocks. -/
def extractKF (pinv : Matrix (p ⊕ z) ε K → Matrix ε (p ⊕ z) K) (F : Matrix (p ⊕ z) (p ⊕ z) K) (m : Model z ε p o K)
    (means : List (p ⊕ z → K)) : Except PyErr ((p ⊕ z → K) × List (p ⊕ z → K) × List (ε → K)) :=
  match means with
  | [] => .error .valueError -- np.empty((-1, dimeps))
  | x :: xs =>
    match extractLoop pinv F m x xs with
    | .error e => .error e
    | .ok (path, resid) => .ok (x, x :: path, resid)

/-! ## Validation (filtering.py:156-163, 292-296) and retries (filtering.py:456-472) -/

/-- `get_ll`: `run_filter(smoother=False, get_ll=True)`; `ncols` is the number of columns of the data, `filter` what set-up and filter do. -/
def runLL {α : Type} (ncols neps : Nat) (filter : Except PyErr (Estim.XNum α)) : Except PyErr (Estim.XNum α) :=
  if ncols = 1 then .error .notImplemented
  else if ncols ≠ neps then .error .notImplemented
  else
    match filter with
    | .error e => .error e
    | .ok .nan => .ok .ninf
    | .ok x => .ok x

/-- The loop over attempts: `err` is the last error. Returns the result or the last error, and the seeds that were used. -/
def attempts {S R : Type} (npas : S → Except PyErr R) (seed : S) : Nat → Option PyErr → (Except (Option PyErr) R × List S)
  | 0, err => (.error err, [])
  | n + 1, _ =>
    match npas seed with
    | .ok r => (.ok r, [seed])
    | .error e =>
      match attempts npas seed n (some e) with
      | (r, used) => (r, seed :: used)

/-- filtering.py:442-472: `none` is the result for a failure that is accepted. Without any attempt, `raised_error` is not defined. -/
def extractRetry {S R : Type} (npas : S → Except PyErr R) (seed : S) (nattemps : Nat) (acceptFailure : Bool) : Except PyErr (Option R) × List S :=
  match attempts npas seed nattemps none with
  | (.ok r, used) => (.ok (some r), used)
  | (.error none, used) => (.error .unboundLocal, used)
  | (.error (some e), used) => (if acceptFailure then .ok none else .error e, used)

end Pydsge.Filter
