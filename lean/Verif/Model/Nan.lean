import Verif.Model.Tools

/-!
# Values that are not numbers (engine.py:225-336, tools.py:17-104, 443-460)

The transition of `Model/Engine.lean`, `Model/Tools.lean` with `none` for NaN in states and shocks; the tables of a solved model consist of numbers.
NaN times anything, also times zero, and NaN plus anything is NaN; comparisons with NaN are false. Infinities are not modelled.
-/

set_option autoImplicit false

namespace Pydsge.Nan

open Matrix Pydsge.Engine Pydsge.GenSys Pydsge.Tools

section
variable {q K : Type} [Fintype q] [DecidableEq q] [Field K] [LinearOrder K]

/-- `a @ s + t` for numbers `a`, `t`. -/
def dotN (a : q → K) (s : q → Option K) (t : K) : Option K :=
  if ∀ i, (s i).isSome then some (a ⬝ᵥ (fun i => (s i).getD 0) + t) else none

/-- `v - x_bar < 0`. -/
def below (v : Option K) (xbar : K) : Bool :=
  match v with
  | none => false
  | some x => decide (x - xbar < 0)

/-- `v - x_bar > 0`. -/
def above (v : Option K) (xbar : K) : Bool :=
  match v with
  | none => false
  | some x => decide (x - xbar > 0)

abbrev ReaderN (K : Type) := Fin 5 → Nat → Nat → Except PyErr (Option K)

/-- engine.py:334-336. -/
def checkCnstN {p : Type} (t : Tables q p K) (q0 : q → Option K) : ReaderN K := fun i l k =>
  if l < t.L ∧ k < t.Kk then
    match t.b l k i with
    | none => .error .uninit
    | some row => .ok (dotN row.1 q0 row.2)
  else .error .oob

/-- engine.py:277-280. -/
def slackLoopN (rd : ReaderN K) (xbar : K) (L : Nat) (l : Nat) : Except PyErr Nat :=
  if l < L then
    match rd 2 l 0 with
    | .error e => .error e
    | .ok v =>
      if above v xbar then
        if l + 1 = L then .ok (l + 1) else slackLoopN rd xbar L (l + 1)
      else .ok l
  else .error .oob
termination_by L - l

/-- engine.py:318-328. -/
def acceptsN (rd : ReaderN K) (xbar : K) (l k : Nat) : Except PyErr Bool := do
  if l ≠ 0 then
    if below (← rd 0 l k) xbar then return false
  if l > 1 then
    if below (← rd 1 l k) xbar then return false
  if below (← rd 4 l k) xbar then return false
  if above (← rd 2 l k) xbar then return false
  if k > 1 then
    if above (← rd 3 l k) xbar then return false
  return true

/-- engine.py:317-328. -/
def bruiteKN (rd : ReaderN K) (xbar : K) (Kk l k : Nat) : Except PyErr (Option (Nat × Nat)) :=
  if k < Kk then
    match acceptsN rd xbar l k with
    | .error e => .error e
    | .ok true => .ok (some (l, k))
    | .ok false => bruiteKN rd xbar Kk l (k + 1)
  else .ok none
termination_by Kk - k

/-- engine.py:316-328. -/
def bruiteLN (rd : ReaderN K) (xbar : K) (L Kk l : Nat) : Except PyErr (Option (Nat × Nat)) :=
  if l < L then
    match bruiteKN rd xbar Kk l 1 with
    | .error e => .error e
    | .ok (some r) => .ok (some r)
    | .ok none => bruiteLN rd xbar L Kk (l + 1)
  else .ok none
termination_by L - l

/-- engine.py:312-330. -/
def bruiteWrapperN (rd : ReaderN K) (xbar : K) (L Kk : Nat) : Except PyErr (Nat × Nat) :=
  match bruiteLN rd xbar L Kk 0 with
  | .error e => .error e
  | .ok (some r) => .ok r
  | .ok none => .ok (999, 999)

/-- engine.py:293-304. -/
def approxLoopN (rd : ReaderN K) (xbar : K) (Kk : Nat) (k : Nat) (loopType : Bool) : Except PyErr (Nat × Nat) :=
  if k + 1 < Kk then
    match rd 4 0 (k + 1) with
    | .error e => .error e
    | .ok v =>
      if loopType = false then
        if k + 2 = Kk then .ok (k + 1, 2) else approxLoopN rd xbar Kk (k + 1) (below v xbar)
      else if above v xbar then .ok (k + 1, 1)
      else if k + 2 = Kk then .ok (k + 1, 2)
      else approxLoopN rd xbar Kk (k + 1) loopType
  else .error .oob
termination_by Kk - k

/-- engine.py:268-308. -/
def findLkN (rd : ReaderN K) (xbar : K) (L Kk : Nat) : Except PyErr (Nat × Nat × Nat) :=
  match slackLoopN rd xbar L 0 with
  | .error e => .error e
  | .ok l =>
    if l < L then
      match bruiteWrapperN rd xbar L Kk with
      | .error e => .error e
      | .ok (l, k) =>
        if l = 999 then
          match approxLoopN rd xbar Kk 0 false with
          | .error e => .error e
          | .ok (k, flag) => .ok (0, k, flag)
        else .ok (l, k, 0)
    else .ok (0, 0, 0)

/-- engine.py:227-264. -/
def tFuncJitN {p : Type} (t : Tables q p K) (xbar : K) (s : q → Option K) (setLK : Int × Int) : Except PyErr (TRes q p (Option K)) :=
  let lkf : Except PyErr (Nat × Nat × Nat) :=
    if setLK.2 = -1 then findLkN (checkCnstN t s) xbar t.L t.Kk
    else
      match pyIdx t.L setLK.1 with
      | .error e => .error e
      | .ok l =>
        match pyIdx t.Kk setLK.2 with
        | .error e => .error e
        | .ok k => .ok (l, k, 0)
  match lkf with
  | .error e => .error e
  | .ok (l, k, flag) =>
    match t.pq l k with
    | none => .error .uninit
    | some c => .ok ⟨fun i => dotN (c.pmat i) s (c.pterm i), fun i => dotN (c.qmat i) s (c.qterm i), l, k, flag⟩

end

variable {z ε p o K : Type} [Fintype z] [Fintype ε] [Fintype p] [Fintype o] [DecidableEq z] [DecidableEq ε] [DecidableEq p]
  [Field K] [LinearOrder K]

/-- tools.py:17-104 `t_func`. -/
def tFuncN (m : Model z ε p o K) (state : p ⊕ z → Option K) (shocks : ε → Option K) (sk : SetK) (linear : Bool) :
    Except PyErr (Step z p (Option K)) :=
  if Fintype.card z = 0 ∧ Fintype.card p ≠ 0 then .error .valueError
  else
    match tFuncJitN m.tables m.xbar (Sum.elim (fun i => state (.inr i)) shocks) (setLK linear sk) with
    | .error e => .error e
    | .ok r => .ok ⟨Sum.elim r.p (fun i => r.q (.inl i)), r.l, r.k, r.flag⟩

/-- tools.py:443-460. -/
def simLoopN (m : Model z ε p o K) (linear : Bool) : (p ⊕ z → Option K) → List (ε → Option K) → Except PyErr (SimRes z p (Option K))
  | state, [] => .ok ⟨[state], [], 0⟩
  | state, e :: es =>
    match tFuncN m state e .none linear with
    | .error err => .error err
    | .ok r =>
      match simLoopN m linear r.state es with
      | .error err => .error err
      | .ok res => .ok ⟨state :: res.X, (r.l, r.k) :: res.LK, r.flag ||| res.flag⟩

/-- tools.py:131-136 `obs(state)`: the constant of the observables and two matrix products. -/
def oFuncN (m : Model z ε p o K) (state : p ⊕ z → Option K) : o → Option K := fun i =>
  dotN (Sum.elim (fun j => m.hx.1 i j) (fun j => m.hx.2.1 i j)) state (m.hx.2.2 i)

end Pydsge.Nan
