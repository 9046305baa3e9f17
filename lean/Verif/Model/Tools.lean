import Verif.Model.GenSys

/-!
# Model of `pydsge/tools.py`

The full state is indexed by `p ⊕ z` (controls first, then states, gensys.py:334), shocks by `ε`, observables by `o`.
-/

set_option autoImplicit false

namespace Pydsge.Tools

open Matrix Pydsge.Engine Pydsge.GenSys

variable {z ε p o K : Type} [Fintype z] [Fintype ε] [Fintype p] [Fintype o] [DecidableEq z] [DecidableEq ε] [DecidableEq p]
  [Field K] [LinearOrder K]

/-- The values that a `set_k` argument can take. -/
inductive SetK
  | none
  | bool (b : Bool)
  | int (n : Int)
  | pair (l k : Int)
  deriving DecidableEq, Repr

/-- tools.py:60-70: translation of `linear`, `set_k` into the integers `(set_l, set_k)`; `(-1,-1)` means "find". -/
def setLK (linear : Bool) (sk : SetK) : Int × Int :=
  if linear then (0, 0)
  else match sk with
    | .none => (-1, -1)
    | .bool _ => (-1, -1)
    | .pair l k => (l, k)
    | .int n => (if n = 0 then 1 else 0, n)

/-- Result of `t_func(..., return_k=True)`: new state, `(l,k)`, flag.  `(l,k)` is the cell of the tables that is used; for imposed negative
numbers the code returns these numbers instead, see `Model/Imposed.lean`. -/
structure Step (z p K : Type) where
  state : p ⊕ z → K
  l : Nat
  k : Nat
  flag : Nat

/-- tools.py:75-91: the call of the jitted transition.  `state[-dimq+dimeps:]` are the last `dimq - dimeps` entries (the
states), except if there are none: then the slice is the whole state and the shapes do not match. -/
def tFuncRaw (m : Model z ε p o K) (state : p ⊕ z → K) (shocks : ε → K) (sk : SetK) (linear : Bool) :
    Except PyErr (TRes (z ⊕ ε) p K) :=
  if Fintype.card z = 0 ∧ Fintype.card p ≠ 0 then .error .valueError
  else tFuncJit m.tables m.xbar (Sum.elim (fun i => state (.inr i)) shocks) (some (setLK linear sk))

/-- tools.py:17-104 `t_func` (without `get_obs`): `newstate = hstack((p, q))`, where the rows of `q` that belong to the
shocks are cut off (l.78-79). -/
def tFunc (m : Model z ε p o K) (state : p ⊕ z → K) (shocks : ε → K) (sk : SetK) (linear : Bool) :
    Except PyErr (Step z p K) :=
  match tFuncRaw m state shocks sk linear with
  | .error e => .error e
  | .ok r => .ok ⟨Sum.elim r.p (fun i => r.q (.inl i)), r.l, r.k, r.flag⟩

/-- `t_func(..., get_obs=True)`: returns `(q, obs)` (engine.py:259-260, tools.py:91). -/
def tFuncObs (m : Model z ε p o K) (state : p ⊕ z → K) (shocks : ε → K) (sk : SetK) (linear : Bool) :
    Except PyErr ((z → K) × (o → K)) :=
  match tFuncRaw m state shocks sk linear with
  | .error e => .error e
  | .ok r =>
    let q : z → K := fun i => r.q (.inl i)
    .ok (q, m.hx.1 *ᵥ r.p + m.hx.2.1 *ᵥ q + m.hx.2.2)

/-- tools.py:131-136 `obs(state)`. -/
def oFunc (m : Model z ε p o K) (state : p ⊕ z → K) : o → K :=
  (fun i => state (.inl i)) ᵥ* m.hx.1ᵀ + (fun i => state (.inr i)) ᵥ* m.hx.2.1ᵀ + m.hx.2.2

/-- tools.py:150-154: half width of the intervals of the observables, `(hstack(hx0, hx1) @ std.T).T`, for one period. -/
def stdObs (m : Model z ε p o K) (std : p ⊕ z → K) : o → K :=
  m.hx.1 *ᵥ (fun i => std (.inl i)) + m.hx.2.1 *ᵥ (fun i => std (.inr i))

/-- tools.py:152, 155: the stacked interval `(x - 1.96 std, x, x + 1.96 std)`, with `c` for 1.96. -/
def interval {ι : Type} (c : K) (x std : ι → K) : (ι → K) × (ι → K) × (ι → K) :=
  (x - c • std, x, x + c • std)

section Irfs

/-- A shock `(name, size, period)` (tools.py:203-206, 221-229). -/
abbrev ShockSpec (ε K : Type) := ε × K × Int

/-- tools.py:258-266: the shock vector of period `t`; a later entry for the same shock and period overwrites. -/
def shkVec (sl : List (ShockSpec ε K)) (t : Nat) : ε → K :=
  sl.foldl (fun v s => if s.2.2 = (t : Int) then Function.update v s.1 s.2.1 else v) 0

/-- `np.any(shk_vec)`. -/
def anyNonzero (v : ε → K) : Bool := decide (∃ e, v e ≠ 0)

/-- `np.any([s[2] for s in new_shocklist])` (tools.py:270). -/
def anyPeriod (sl : List (ShockSpec ε K)) : Bool := sl.any (fun s => s.2.2 ≠ 0)

/-- `np.any(set_k)` (tools.py:201). -/
def SetK.any : SetK → Bool
  | .none => false
  | .bool b => b
  | .int n => n ≠ 0
  | .pair l k => l ≠ 0 || k ≠ 0

/-- tools.py:200-201. -/
def forceDefault (arg : Option Bool) (sk : SetK) : Bool :=
  match arg with
  | some b => b
  | none => !sk.any

/-- tools.py:291-302: the spell imposed in period `t` by the user's `set_k`. -/
def setKEff (sk : SetK) (t : Nat) : SetK :=
  match sk with
  | .none => .none
  | .pair l k => if l - t ≥ 0 then .pair (l - t) k else .pair 0 (max (k + l - t) 0)
  | .int n => if n ≠ 0 then .pair 0 (max (n - t) 0) else .int 0
  | .bool b => if b then .pair 0 (max (1 - t) 0) else .bool false

/-- tools.py:271: the spell of the previous period, elapsed by one. -/
def continued (l k : Nat) : SetK := if l ≠ 0 then .pair ((l : Int) - 1) k else .pair 0 (max ((k : Int) - 1) 0)

/-- tools.py:304-309. -/
def tooLong (lks : Nat × Nat) : SetK → Bool
  | .pair l k => decide (l > (lks.1 : Int) ∨ k > (lks.2 : Int))
  | _ => false

/-- Arguments of `irfs` that do not change over time. -/
structure IrfArgs (z ε p K : Type) where
  shocks : List (ShockSpec ε K)
  setK : SetK
  force : Bool
  linear : Bool

/-- Loop state of `runner` (tools.py:237-239, 252-254). -/
structure IrfState (z p K : Type) where
  state : p ⊕ z → K
  l : Nat
  k : Nat
  flag : Nat
  mult : Bool

/-- tools.py:256-329: one period of `runner`. -/
def irfStep (m : Model z ε p o K) (a : IrfArgs z ε p K) (st : IrfState z p K) (t : Nat) :
    Except PyErr (IrfState z p K) :=
  let shk := shkVec a.shocks t
  -- l.270: force the continuation of the spell
  let choice : Except PyErr (SetK × Bool) :=
    if a.force && !anyNonzero shk && anyPeriod a.shocks then
      match tFunc m st.state shk .none a.linear with
      | .error e => .error e
      | .ok endo =>
        let eff := continued st.l st.k
        .ok (eff, decide (eff ≠ .pair endo.l endo.k))
    else .ok (setKEff a.setK t, false)
  match choice with
  | .error e => .error e
  | .ok (eff, mult) =>
    if tooLong m.lks eff then .error .indexError
    else
      match tFunc m st.state shk eff a.linear with
      | .error e => .error e
      | .ok r => .ok ⟨r.state, r.l, r.k, st.flag ||| r.flag, st.mult || mult⟩

/-- tools.py:233-331 `runner` after parameters are set: the list of loop states after each period. -/
def irfRun (m : Model z ε p o K) (a : IrfArgs z ε p K) : Nat → IrfState z p K → Nat → Except PyErr (List (IrfState z p K))
  | _, _, 0 => .ok []
  | t, st, n + 1 =>
    match irfStep m a st t with
    | .error e => .error e
    | .ok st' =>
      match irfRun m a (t + 1) st' n with
      | .error e => .error e
      | .ok rest => .ok (st' :: rest)

/-- `irfs(shocklist, state=state, T=T, ...)` for the current parameters. -/
def irfs (m : Model z ε p o K) (a : IrfArgs z ε p K) (state : p ⊕ z → K) (T : Nat) :
    Except PyErr (List (IrfState z p K)) :=
  irfRun m a 0 ⟨state, 0, 0, 0, false⟩ T

end Irfs

section Simulate

/-- tools.py:433-434: `np.where(np.isnan(mask), eps, operation(mask, eps))` for one entry (`none` is NaN). -/
def applyMask (op : K → K → K) (mask : Option K) (e : K) : K :=
  match mask with
  | none => e
  | some x => op x e

/-- Result of `simulate` for one sample: states (starting with `init`), `(l,k)` per period, summary flag. -/
structure SimRes (z p K : Type) where
  X : List (p ⊕ z → K)
  LK : List (Nat × Nat)
  flag : Nat

/-- tools.py:443-458: the loop over the residuals. -/
def simLoop (m : Model z ε p o K) (linear : Bool) : (p ⊕ z → K) → List (ε → K) → Except PyErr (SimRes z p K)
  | state, [] => .ok ⟨[state], [], 0⟩
  | state, e :: es =>
    match tFunc m state e .none linear with
    | .error err => .error err
    | .ok r =>
      match simLoop m linear r.state es with
      | .error err => .error err
      | .ok res => .ok ⟨state :: res.X, (r.l, r.k) :: res.LK, r.flag ||| res.flag⟩

/-- tools.py:433-434: the residuals after the mask, a row per period; numpy stretches a single row (of either array) and raises if the
numbers of rows differ otherwise. -/
def maskEps (op : K → K → K) (ms : List (ε → Option K)) (eps : List (ε → K)) : Except PyErr (List (ε → K)) :=
  let f : (ε → Option K) → (ε → K) → ε → K := fun mk e i => applyMask op (mk i) (e i)
  if ms.length = eps.length then .ok (List.zipWith f ms eps)
  else match ms, eps with
    | [mk], eps => .ok (eps.map (f mk))
    | ms, [e] => .ok (ms.map (fun mk => f mk e))
    | _, _ => .error .valueError

/-- tools.py:433-434. -/
def masked (op : K → K → K) (mask : Option (List (ε → Option K))) (eps : List (ε → K)) : Except PyErr (List (ε → K)) :=
  match mask with
  | none => .ok eps
  | some ms => maskEps op ms eps

/-- tools.py:426-462 `runner` of `simulate` for one sample with parameters already set. -/
def simulate (m : Model z ε p o K) (linear : Bool) (mask : Option (List (ε → Option K))) (op : K → K → K)
    (init : p ⊕ z → K) (eps : List (ε → K)) : Except PyErr (SimRes z p K) :=
  match masked op mask eps with
  | .error e => .error e
  | .ok eps => simLoop m linear init eps

end Simulate

section Args

/-- `pandas.DataFrame(values, index, columns)` for a 1-d array of length `n`: the values form one column, so that `columns` must
have length 1, and an index must have length `n` (contract of pandas; returns the shape). -/
def dataFrame1d (n : Nat) (index : Option Nat) (columns : Nat) : Except PyErr (Nat × Nat) :=
  if columns ≠ 1 then .error .valueError
  else match index with
    | none => .ok (n, 1)
    | some i => if i ≠ n then .error .valueError else .ok (n, 1)

/-- tools.py:131-148 `obs(state)` for a 1-d `state`: the result is wrapped in a data frame with one column per observable
(l.143-145); `data` is the number of rows of `self.data` if data is loaded. -/
def oFunc1d (m : Model z ε p o K) (data : Option Nat) (state : p ⊕ z → K) : Except PyErr (o → K) :=
  match dataFrame1d (Fintype.card o) data (Fintype.card o) with
  | .error e => .error e
  | .ok _ => .ok (oFunc m state)

/-- The dictionary `source` of `simulate`: the entries it has. -/
structure SimSource (P R I : Type) where
  pars : Option P
  resid : Option R
  init : Option I

/-- `x if x is not None else source[key]` (tools.py:408-410). -/
def argOr {P R I α : Type} (x : Option α) (source : Option (SimSource P R I)) (key : SimSource P R I → Option α) : Except PyErr α :=
  match x, source with
  | some a, _ => .ok a
  | none, none => .error .typeError
  | none, some s =>
    match key s with
    | some a => .ok a
    | none => .error .keyError

/-- tools.py:408-485 `simulate` around the runs: the arguments, then `total=len(source["pars"])` (l.468), then the runs. -/
def simulateTop {P R I α : Type} (source : Option (SimSource P R I)) (pars : Option P) (resid : Option R) (init : Option I)
    (runs : P → R → I → Except PyErr α) : Except PyErr α :=
  match argOr pars source (·.pars) with
  | .error e => .error e
  | .ok ps =>
    match argOr resid source (·.resid) with
    | .error e => .error e
    | .ok rs =>
      match argOr init source (·.init) with
      | .error e => .error e
      | .ok is =>
        match argOr none source (·.pars) with
        | .error e => .error e
        | .ok _ => runs ps rs is

end Args

section Traj

/-- `self.precalc_tmat` (engine.py:213): the trajectory tables together with their shape `L × Kk`. -/
structure TTab (q K : Type) where
  L : Nat
  Kk : Nat
  mem : TMem q K

/-- `preprocess_tmats` (engine.py:205-223) for the current solution. -/
def newTmats (m : Model z ε p o K) (sched : Nat → List Nat) : Except PyErr (TTab (z ⊕ ε) K) :=
  match tLoop m.ff m.tables.pq m.tables.L m.tables.Kk sched with
  | .error e => .error e
  | .ok mem => .ok ⟨m.tables.L, m.tables.Kk, mem⟩

/-- One entry `tmat[s, l, k] @ state + tterm[s, l, k]`; the indices are checked by numpy. -/
def TTab.read (tt : TTab (z ⊕ ε) K) (state : z ⊕ ε → K) (s l k : Nat) : Except PyErr K :=
  if s < tt.L + tt.Kk ∧ l < tt.L ∧ k < tt.Kk then
    match tt.mem l k s with
    | none => .error .uninit
    | some row => .ok (row.1 ⬝ᵥ state + row.2)
  else .error .indexError

/-- tools.py:490-507: the equilibrium `(l,k)`: both given, or found for the state. -/
def trajLK (m : Model z ε p o K) (state : z ⊕ ε → K) (lArg kArg : Option Int) : Except PyErr (Int × Int) :=
  match lArg, kArg with
  | some l, some k => .ok (l, k)
  | _, _ =>
    match findLk (checkCnst m.tables state) m.xbar m.tables.L m.tables.Kk with
    | .error e => .error e
    | .ok (l, k, _) => .ok ((l : Int), (k : Int))

/-- tools.py:514-516: `tmat[:, l, k - 1] @ state + tterm[:, l, k - 1]`; the indices follow Python's rules, and numpy raises `IndexError` for
those outside. -/
def trajVals (tt : TTab (z ⊕ ε) K) (state : z ⊕ ε → K) (l k : Int) : Except PyErr (List K) :=
  match pyIdx tt.L l with
  | .error _ => .error .indexError
  | .ok li =>
    match pyIdx tt.Kk (k - 1) with
    | .error _ => .error .indexError
    | .ok ki => (List.range (tt.L + tt.Kk)).mapM (fun s => tt.read state s li ki)

/-- tools.py:488-516 `traj`, given the trajectory tables in use: returns `(l, k)` (printed by the code) and the trajectory. -/
def traj (m : Model z ε p o K) (tt : TTab (z ⊕ ε) K) (state : z ⊕ ε → K) (lArg kArg : Option Int) :
    Except PyErr ((Int × Int) × List K) :=
  match trajLK m state lArg kArg with
  | .error e => .error e
  | .ok (l, k) =>
    match trajVals tt state l k with
    | .error e => .error e
    | .ok vals => .ok ((l, k), vals)

/-- tools.py:523-542: the equilibrium used by `k_map` (non-negative arguments): `k` is found if not given, and then
`l = l or l_endo`; with `k` given `l = l or 0`. -/
def kMapLK (m : Model z ε p o K) (state : z ⊕ ε → K) (lArg kArg : Option Nat) : Except PyErr (Nat × Nat) :=
  match kArg with
  | none =>
    match findLk (checkCnst m.tables state) m.xbar m.tables.L m.tables.Kk with
    | .error e => .error e
    | .ok (le, k, _) => .ok (match lArg with | some l => if l = 0 then le else l | none => le, k)
  | some k => .ok (match lArg with | some l => l | none => 0, k)

/-- tools.py:549-558: the two maps of `k_map`. -/
def kMapVals (m : Model z ε p o K) (tt : TTab (z ⊕ ε) K) (state : z ⊕ ε → K) (l k : Nat) : Except PyErr (List K × List K) :=
  match (List.range m.lks.1).mapM (fun i => tt.read state (i + k) i k) with
  | .error e => .error e
  | .ok ls =>
    match (List.range m.lks.2).mapM (fun i => tt.read state (l + i) l i) with
    | .error e => .error e
    | .ok ks => .ok (ls.map (· - m.xbar), ks.map (· - m.xbar))

/-- tools.py:519-558 `k_map`, given the trajectory tables in use. -/
def kMap (m : Model z ε p o K) (tt : TTab (z ⊕ ε) K) (state : z ⊕ ε → K) (lArg kArg : Option Nat) :
    Except PyErr (List K × List K) :=
  match kMapLK m state lArg kArg with
  | .error e => .error e
  | .ok (l, k) => kMapVals m tt state l k

/-- The part of `self` that matters for `traj` and `k_map`: the current solution, and `precalc_tmat` if it exists. -/
structure TObj (z ε p o K : Type) where
  mod : Model z ε p o K
  cache : Option (TTab (z ⊕ ε) K)

/-- A call. -/
inductive TCall (z ε p o K : Type)
  | setPar (m : Model z ε p o K)
  | traj (state : z ⊕ ε → K) (l k : Option Int)
  | kMap (state : z ⊕ ε → K) (l k : Option Nat)

/-- The answer of a call. -/
inductive TAns (K : Type)
  | unit
  | traj (r : Except PyErr ((Int × Int) × List K))
  | kMap (r : Except PyErr (List K × List K))

/-- tools.py:509-512 and 544-547: `precalc_tmat` is computed if the attribute does not exist. -/
def TObj.tmats (ob : TObj z ε p o K) (sched : Nat → List Nat) : Except PyErr (TTab (z ⊕ ε) K) :=
  match ob.cache with
  | some tt => .ok tt
  | none => newTmats ob.mod sched

/-- Execute one call.  `set_par` (successful, with the new solution `m`) replaces the solution and does not touch
`precalc_tmat` (gensys.py sets `sys, precalc_mat, ff, lks, hx`; no line of the package deletes or rewrites `precalc_tmat`).
The parallel iterations run in the order `sched`. -/
def TObj.call (sched : Nat → List Nat) (ob : TObj z ε p o K) : TCall z ε p o K → TObj z ε p o K × TAns K
  | .setPar m => ({ ob with mod := m }, .unit)
  | .traj state l k =>
    match trajLK ob.mod state l k with
    | .error e => (ob, .traj (.error e))
    | .ok _ =>
      match ob.tmats sched with
      | .error e => (ob, .traj (.error e))
      | .ok tt => ({ ob with cache := some tt }, .traj (Tools.traj ob.mod tt state l k))
  | .kMap state l k =>
    match kMapLK ob.mod state l k with
    | .error e => (ob, .kMap (.error e))
    | .ok _ =>
      match ob.tmats sched with
      | .error e => (ob, .kMap (.error e))
      | .ok tt => ({ ob with cache := some tt }, .kMap (Tools.kMap ob.mod tt state l k))

/-- A history of calls: the final object and all answers. -/
def TObj.run (sched : Nat → List Nat) : TObj z ε p o K → List (TCall z ε p o K) → TObj z ε p o K × List (TAns K)
  | ob, [] => (ob, [])
  | ob, c :: cs =>
    let (ob', a) := ob.call sched c
    let (ob'', as) := TObj.run sched ob' cs
    (ob'', a :: as)

end Traj
end Pydsge.Tools
