import Verif.Model.Tools

/-!
# Decompositions (pydsge/stats.py)

`tqdm`, printing and the labels of data frames are left out. `set_par` has been called: a `Model` record is given for each sample.
-/

set_option autoImplicit false

namespace Pydsge.Stats

open Matrix Pydsge.Engine Pydsge.GenSys Pydsge.Tools

variable {z ε p o K : Type} [Fintype z] [Fintype ε] [Fintype p] [Fintype o] [DecidableEq z] [DecidableEq ε] [DecidableEq p]
  [Field K] [LinearOrder K]

/-! ## Variance decomposition (stats.py:58-121) -/

/-- A draw: the model with its parameters, the state and the residuals of one period (stats.py:91, 98-99). -/
structure Draw (z ε p o K : Type) where
  mod : Model z ε p o K
  state : p ⊕ z → K
  resid : ε → K

/-- `self.irfs((e, size, 0), T=horizon, state=..., linear=...)[0].to_numpy()[-1]` (stats.py:106-111): the last row. -/
def lastIrf (d : Draw z ε p o K) (linear : Bool) (horizon : Nat) (e : ε) (size : K) : Except PyErr (p ⊕ z → K) :=
  match irfs d.mod ⟨[(e, size, 0)], .bool false, forceDefault none (.bool false), linear⟩ d.state horizon with
  | .error err => .error err
  | .ok xs =>
    match xs.getLast? with
    | none => .error .indexError
    | some st => .ok st.state

/-- `(irfs - void) ** 2` (stats.py:106-112). -/
def sqDiff (d : Draw z ε p o K) (linear : Bool) (horizon : Nat) (e : ε) : Except PyErr (p ⊕ z → K) :=
  match lastIrf d linear horizon e (d.resid e) with
  | .error err => .error err
  | .ok a =>
    match lastIrf d linear horizon e 0 with
    | .error err => .error err
    | .ok b => .ok fun v => (a v - b v) ^ 2

/-- stats.py:101-112: the loop over the shocks of one draw. -/
def addShocks (d : Draw z ε p o K) (linear : Bool) (horizon : Nat) : List ε → (ε → p ⊕ z → K) → Except PyErr (ε → p ⊕ z → K)
  | [], gis => .ok gis
  | e :: es, gis =>
    match sqDiff d linear horizon e with
    | .error err => .error err
    | .ok sq => addShocks d linear horizon es (Function.update gis e (gis e + sq))

/-- stats.py:96-112: the loop over the draws. -/
def addDraws (shocks : List ε) (linear : Bool) (horizon : Nat) : List (Draw z ε p o K) → (ε → p ⊕ z → K) → Except PyErr (ε → p ⊕ z → K)
  | [], gis => .ok gis
  | d :: ds, gis =>
    match addShocks d linear horizon shocks gis with
    | .error err => .error err
    | .ok gis => addDraws shocks linear horizon ds gis

/-- `a / b` of arrays of floats for `0 ≤ a ≤ b`: `0 / 0` is NaN (`none`). -/
def fdiv (a b : K) : Option K := if b = 0 then none else some (a / b)

/-- stats.py:58-121 `gfevd` after drawing the sample. -/
def gfevd (shocks : List ε) (linear : Bool) (horizon : Nat) (sample : List (Draw z ε p o K)) : Except PyErr (ε → p ⊕ z → Option K) :=
  match addDraws shocks linear horizon sample 0 with
  | .error err => .error err
  | .ok gis => .ok fun e v => fdiv (gis e v) (∑ e', gis e' v)

/-- `A @ B` for shapes `r × c` and `r' × c'` (shape only). -/
def matmulShape (a b : Nat × Nat) : Except PyErr (Nat × Nat) :=
  if a.2 = b.1 then .ok (a.1, b.2) else .error .valueError

/-- stats.py:130: `self.hx[0] @ vd.to_numpy().T`, the first step of `mbcs_index` (shape only); `hx[0]` has one row per observable and one
column per control, `vd` one row per shock and one column per variable. -/
def mbcsShape (_ : Model z ε p o K) : Except PyErr (Nat × Nat) :=
  matmulShape (Fintype.card o, Fintype.card p) (Fintype.card (p ⊕ z), Fintype.card ε)

/-! ## Historic decomposition (stats.py:150-210) -/

/-- Loop state: the simulated state and the contributions `hd[i, :, t, :]`. -/
structure Hist (z ε p K : Type) where
  state : p ⊕ z → K
  hd : ε → p ⊕ z → K

/-- stats.py:171-174. -/
def histInit (state : p ⊕ z → K) : Hist z ε p K := ⟨state, fun _ i => state i / (Fintype.card ε : K)⟩

/-- `np.hstack((hd[i, s, t, -dimq+dimeps:], eps))` with `eps` zero but at `s` (stats.py:184-190). -/
def contribV (h : Hist z ε p K) (resid : ε → K) (s : ε) : z ⊕ ε → K :=
  Sum.elim (fun i => h.hd s (.inr i)) (Pi.single s (resid s))

/-- stats.py:177-201: one period; also returns `(l, k)`. `rcons` is only read if `k` is not zero, and then it has just been written. -/
def histStep (m : Model z ε p o K) (linear : Bool) (h : Hist z ε p K) (resid : ε → K) : Except PyErr (Hist z ε p K × Nat × Nat) :=
  match tFunc m h.state resid .none linear with
  | .error e => .error e
  | .ok r =>
    if r.l < m.tables.L ∧ r.k < m.tables.Kk then
      match m.tables.pq r.l r.k with
      | none => .error .uninit
      | some c =>
        let v := contribV h resid
        let base : ε → p ⊕ z → K := fun s => Sum.elim (c.pmat *ᵥ v s) (fun i => (c.qmat *ᵥ v s) (.inl i))
        if r.k = 0 then .ok (⟨r.state, base⟩, r.l, r.k)
        else
          match m.tables.b r.l r.k 0 with
          | none => .error .uninit
          | some row =>
            let rcons : ε → K := fun s => row.1 ⬝ᵥ v s
            let term : p ⊕ z → K := Sum.elim c.pterm (fun i => c.qterm (.inl i))
            if ∑ s, rcons s = 0 then .ok (⟨r.state, base⟩, r.l, r.k)
            else .ok (⟨r.state, fun s => base s + (rcons s / ∑ s, rcons s) • term⟩, r.l, r.k)
    else .error .indexError

/-- stats.py:176-201: all periods, after the initial one. -/
def histLoop (m : Model z ε p o K) (linear : Bool) : Hist z ε p K → List (ε → K) → Except PyErr (List (Hist z ε p K))
  | _, [] => .ok []
  | h, e :: es =>
    match histStep m linear h e with
    | .error err => .error err
    | .ok (h', _) =>
      match histLoop m linear h' es with
      | .error err => .error err
      | .ok rest => .ok (h' :: rest)

/-- One sample: the model with its parameters, initial state and residuals. -/
structure Sample (z ε p o K : Type) where
  mod : Model z ε p o K
  init : p ⊕ z → K
  resid : List (ε → K)

/-- stats.py:163-201 for one sample; `T` is the number of rows of the data. Rows that are never written are left uninitialised, rows
beyond the end raise. -/
def histSample (T : Nat) (linear : Bool) (s : Sample z ε p o K) : Except PyErr (List (Hist z ε p K)) :=
  if T = 0 then .error .indexError
  else
    match histLoop s.mod linear (histInit s.init) s.resid with
    | .error e => .error e
    | .ok rest =>
      if T < rest.length + 1 then .error .indexError
      else if rest.length + 1 < T then .error .uninit
      else .ok (histInit s.init :: rest)

/-- The mean over samples in period `t` of some function of the loop state (stats.py:204-208). -/
def sampleMean (xs : List (List (Hist z ε p K))) (t : Nat) (f : Hist z ε p K → K) : K :=
  (xs.map fun hs => match hs[t]? with
    | some h => f h
    | none => 0).sum / (xs.length : K)

/-- stats.py:150-210 `nhd`: contributions by shock, period and variable, and means by period and variable. -/
def nhd (T : Nat) (linear : Bool) (samples : List (Sample z ε p o K)) : Except PyErr ((ε → Nat → p ⊕ z → K) × (Nat → p ⊕ z → K)) :=
  match samples.mapM (histSample T linear) with
  | .error e => .error e
  | .ok xs => .ok (fun s t i => sampleMean xs t (fun h => h.hd s i), fun t i => sampleMean xs t (fun h => h.state i))

/-! ## Sorting (stats.py:273-289), entry by entry -/

/-- Loop state `hmin, hmax, hmint, hmaxt`. -/
structure Bands (K : Type) where
  hmin : K
  hmax : K
  mint : List (K × K)
  maxt : List (K × K)

/-- stats.py:281-287. -/
def bandStep (b : Bands K) (h : K) : Bands K :=
  let newmax := b.hmax + if h > 0 then h else 0
  let newmin := b.hmin + if h < 0 then h else 0
  ⟨newmin, newmax, b.mint ++ [(b.hmin, newmin)], b.maxt ++ [(b.hmax, newmax)]⟩

/-- stats.py:273-289 `sort_nhd` for one entry of the arrays; `hd[0]` of an empty list raises. -/
def sortNhd (hd : List K) : Except PyErr (List (K × K) × List (K × K)) :=
  if hd = [] then .error .indexError
  else
    let b := hd.foldl bandStep ⟨0, 0, [], []⟩
    .ok (b.mint, b.maxt)

/-! ## Posterior mean (stats.py:264-270) -/

/-- `bool(a)` of an array: raises if it has more than one element. -/
def arrayTruth (elems : List K) : Except PyErr Bool :=
  match elems with
  | [] => .ok false
  | [x] => .ok (decide (x ≠ 0))
  | _ => .error .valueError

/-- A chain: draws by walkers by `n` parameters. -/
abbrev Chain (n : Nat) (K : Type) := List (List (Fin n → K))

/-- `chain.reshape(-1, npar).mean(axis=0)` (stats.py:270). -/
def chainMean {n : Nat} (chain : Chain n K) : Fin n → K := fun j => (chain.flatten.map (· j)).sum / (chain.flatten.length : K)

/-- stats.py:264-270 `post_mean(self, chain, tune)`; `stored` is `self.get_chain()` and `getTune` is `self.get_tune`. -/
def postMean {n : Nat} (stored : Chain n K) (getTune : Int) (chain : Option (Chain n K)) (tune : Option Int) : Except PyErr (Fin n → K) :=
  let tune := match tune with
    | some t => if t ≠ 0 then t else getTune
    | none => getTune
  match chain with
  | none => .ok (chainMean (sliceFrom stored (-tune)))
  | some c =>
    match arrayTruth (c.flatten.flatMap fun x => List.ofFn x) with
    | .error e => .error e
    | .ok true => .ok (chainMean c)
    | .ok false => .ok (chainMean (sliceFrom stored (-tune)))

end Pydsge.Stats
