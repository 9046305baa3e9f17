import Mathlib.Data.Matrix.Block
import Mathlib.Data.Matrix.Mul
import Mathlib.LinearAlgebra.Matrix.Adjugate
import Mathlib.Algebra.Order.Field.Basic
import Verif.Model.Py

/-!
# Model of `pydsge/engine.py`

Arrays that the code splits at `dimq` are indexed by `q ⊕ p`: index `i < dimq` is `inl i`, index `dimq + i` is `inr i`.
`np.empty` tables are maps into `Option`: `none` means "not written yet".  Arithmetic is exact, in a field `K`.
-/

set_option autoImplicit false

namespace Pydsge.Engine

open Matrix

variable {q p K : Type} [Fintype q] [Fintype p] [DecidableEq q] [DecidableEq p]

/-- `numpy.linalg.inv` (used at engine.py:22,59,64): the inverse, or `LinAlgError` for a singular matrix. -/
def npInv {n : Type} [Fintype n] [DecidableEq n] [Field K] [DecidableEq K] (A : Matrix n n K) :
    Except PyErr (Matrix n n K) :=
  if A.det = 0 then .error .linAlg else .ok (A.det⁻¹ • A.adjugate)

/-- The system matrices `S, T, V, W, h` handed to the engine (engine.py:45): slack regime `S x' = T x`,
binding regime `V x' = W x + h`, with `x = (q, p)`. -/
structure Sys (q p K : Type) where
  S : Matrix (q ⊕ p) (q ⊕ p) K
  T : Matrix (q ⊕ p) (q ⊕ p) K
  V : Matrix (q ⊕ p) (q ⊕ p) K
  W : Matrix (q ⊕ p) (q ⊕ p) K
  h : q ⊕ p → K

/-- One cell `(l,k)` of the tables `pmat, pterm, qmat, qterm` (engine.py:69-72). -/
structure Cell (q p K : Type) where
  pmat : Matrix p q K
  pterm : p → K
  qmat : Matrix q q K
  qterm : q → K

section LinAlg
variable [Field K] [DecidableEq K]

/-- engine.py:14-26 `get_lam`. -/
def getLam (omg : Matrix p q K) (psi : p → K) (M : Sys q p K) (l : Nat) :
    Except PyErr (Matrix q q K × (q → K)) :=
  let A := if l ≠ 0 then M.S else M.V
  let B := if l ≠ 0 then M.T else M.W
  let c : q → K := if l ≠ 0 then 0 else fun i => M.h (.inl i)
  match npInv (A.toBlocks₁₁ + A.toBlocks₁₂ * omg) with
  | .error e => .error e
  | .ok inv => .ok (inv * B.toBlocks₁₁, inv *ᵥ (c - A.toBlocks₁₂ *ᵥ psi))

/-- engine.py:30-42 `get_omg`. -/
def getOmg (omg : Matrix p q K) (psi : p → K) (lam : Matrix q q K) (xi : q → K) (M : Sys q p K) (l : Nat) :
    Matrix p q K × (p → K) :=
  let A := if l ≠ 0 then M.S else M.V
  let B := if l ≠ 0 then M.T else M.W
  let c : p → K := if l ≠ 0 then 0 else fun i => M.h (.inr i)
  let dum := A.toBlocks₂₁ + A.toBlocks₂₂ * omg
  let psi' := dum *ᵥ xi + A.toBlocks₂₂ *ᵥ psi - c
  let omg' := dum * lam - B.toBlocks₂₁
  (omg', psi')

/-- Multiply the rows `[dimq:]` of a matrix by `X` from the left (`M[dimq:] = X @ M[dimq:]`, engine.py:60,61,65,66). -/
def lowerRows (X : Matrix p p K) (A : Matrix (q ⊕ p) (q ⊕ p) K) : Matrix (q ⊕ p) (q ⊕ p) K :=
  fromBlocks A.toBlocks₁₁ A.toBlocks₁₂ (X * A.toBlocks₂₁) (X * A.toBlocks₂₂)

/-- The same for a vector (engine.py:67). -/
def lowerVec (X : Matrix p p K) (h : q ⊕ p → K) : q ⊕ p → K :=
  Sum.elim (fun i => h (.inl i)) (X *ᵥ fun i => h (.inr i))

/-- engine.py:52-67: scale the lower rows such that the lower right blocks of `T` and `W` become identities.
The condition-number warning (l.53-57) only prints and is left out. -/
def normalise (M : Sys q p K) : Except PyErr (Sys q p K) :=
  match npInv M.T.toBlocks₂₂ with
  | .error e => .error e
  | .ok T22i =>
    match npInv M.W.toBlocks₂₂ with
    | .error e => .error e
    | .ok W22i =>
      .ok { S := lowerRows T22i M.S, T := lowerRows T22i M.T,
            V := lowerRows W22i M.V, W := lowerRows W22i M.W, h := lowerVec W22i M.h }

/-- The tables `pmat, pterm, qmat, qterm` while they are being filled. -/
abbrev Mem (q p K : Type) := Nat → Nat → Option (Cell q p K)

/-- Write cell `(l,k)`. -/
def Mem.set (mem : Mem q p K) (l k : Nat) (c : Cell q p K) : Mem q p K :=
  fun l' k' => if l' = l ∧ k' = k then some c else mem l' k'

/-- engine.py:82-102: body of the double loop.  `max(l-1,0)`, `max(k-1,0)` are truncated subtractions. -/
def lkStep (M : Sys q p K) (l : Nat) (mem : Mem q p K) (k : Nat) : Except PyErr (Mem q p K) :=
  if k ≠ 0 ∨ l ≠ 0 then
    let lLast := l - 1
    let kLast := if l ≠ 0 then k else k - 1
    match mem lLast kLast with
    | none => .error .uninit
    | some c =>
      match getLam c.pmat c.pterm M l with
      | .error e => .error e
      | .ok (lam, xi) =>
        let (omg, psi) := getOmg c.pmat c.pterm lam xi M l
        .ok (mem.set l k ⟨omg, psi, lam, xi⟩)
  else .ok mem

/-- engine.py:79-102: the double loop over `l in range(L)`, `k in range(Kk)` (`L`, `Kk` are the incremented bounds,
i.e. the table shape), started from the tables with only cell `(0,0)` written (l.69-77). -/
def lkLoop (M : Sys q p K) (omg : Matrix p q K) (lam : Matrix q q K) (L Kk : Nat) : Except PyErr (Mem q p K) :=
  (List.range L).foldlM (fun mem l => (List.range Kk).foldlM (lkStep M l) mem)
    (Mem.set (fun _ _ => none) 0 0 ⟨omg, 0, lam, 0⟩)

end LinAlg

section Tables
variable [Field K]

/-- One row `bmat[i,l,k], bterm[i,l,k]` (or `tmat[s,l,k], tterm[s,l,k]`). -/
abbrev Row (q K : Type) := (q → K) × K

/-- The constraint functional of gen_sys: `fq1, fp1, fq0` (engine.py:45,119). -/
structure Fun3 (q p K : Type) where
  fq1 : q → K
  fp1 : p → K
  fq0 : q → K

/-- engine.py:119: `y2r = fp1 @ pmat + fq1 @ qmat + fq0`. -/
def y2r (f : Fun3 q p K) (c : Cell q p K) : q → K := f.fp1 ᵥ* c.pmat + f.fq1 ᵥ* c.qmat + f.fq0

/-- engine.py:120: `cr = fp1 @ pterm + fq1 @ qterm`. -/
def cr (f : Fun3 q p K) (c : Cell q p K) : K := f.fp1 ⬝ᵥ c.pterm + f.fq1 ⬝ᵥ c.qterm

/-- engine.py:116 / 170. -/
def lLoc (l s : Nat) : Nat := l - s

/-- engine.py:117 / 171: `max(min(k, k + l - s), 0)`. -/
def kLoc (l k s : Nat) : Nat := min k (k + l - s)

/-- Local variables of the inner loop: `lam`, `xi` and the five rows written so far for this `(l,k)`. -/
structure BState (q K : Type) where
  lam : Matrix q q K
  xi : q → K
  rows : Fin 5 → Option (Row q K)

/-- engine.py:122-136: the conditions under which iteration `s` writes row `i`.
`s == l - 1` and `s == l + k - 1` are over Python integers, hence `s + 1 = l`, `s + 1 = l + k`. -/
def hits (l k s : Nat) (i : Fin 5) : Bool :=
  match i with
  | 0 => s = 0
  | 1 => s + 1 = l
  | 2 => s = l
  | 3 => s + 1 = l + k
  | 4 => s = l + k

/-- engine.py:114-139: one iteration `s` of the inner loop for cell `(l,k)`. -/
def bInner (f : Fun3 q p K) (mem : Mem q p K) (l k : Nat) (st : BState q K) (s : Nat) :
    Except PyErr (BState q K) :=
  match mem (lLoc l s) (kLoc l k s) with
  | none => .error .uninit
  | some c =>
    let row : Row q K := (y2r f c ᵥ* st.lam, cr f c + y2r f c ⬝ᵥ st.xi)
    .ok { lam := c.qmat * st.lam
          xi := c.qmat *ᵥ st.xi + c.qterm
          rows := fun i => if hits l k s i then some row else st.rows i }

/-- engine.py:111-139: the whole inner loop for one `(l,k)`: `lam = eye`, `xi = 0`, `s in range(l+k+1)`. -/
def bCell (f : Fun3 q p K) (mem : Mem q p K) (l k : Nat) (rows0 : Fin 5 → Option (Row q K)) :
    Except PyErr (Fin 5 → Option (Row q K)) :=
  match (List.range (l + k + 1)).foldlM (bInner f mem l k) ⟨1, 0, rows0⟩ with
  | .error e => .error e
  | .ok st => .ok st.rows

/-- The tables `bmat, bterm` while they are being filled (engine.py:104-105). -/
abbrev BMem (q K : Type) := Nat → Nat → Fin 5 → Option (Row q K)

/-- Body of the (possibly parallel) loop over `k` (engine.py:108-139). -/
def bStep (f : Fun3 q p K) (mem : Mem q p K) (l : Nat) (b : BMem q K) (k : Nat) : Except PyErr (BMem q K) :=
  match bCell f mem l k (b l k) with
  | .error e => .error e
  | .ok rows => .ok (fun l' k' => if l' = l ∧ k' = k then rows else b l' k')

/-- engine.py:107-139: loop over `l in range(L)`; for each `l` the iterations `k in prange(Kk)` are executed in
the order `sched l`.  Serial execution is `sched l = List.range Kk`.  `prange` bodies are taken to be atomic:
each one writes only its own cells `[:, l, k]` and its own locals. -/
def bLoop (f : Fun3 q p K) (mem : Mem q p K) (L : Nat) (sched : Nat → List Nat) : Except PyErr (BMem q K) :=
  (List.range L).foldlM (fun b l => (sched l).foldlM (bStep f mem l) b) (fun _ _ _ => none)

/-- Local variables of the inner loop of `preprocess_tmats_jit`. -/
structure TState (q K : Type) where
  lam : Matrix q q K
  xi : q → K
  rows : Nat → Option (Row q K)

/-- engine.py:168-179: one iteration `s`. -/
def tInner (f : Fun3 q p K) (mem : Mem q p K) (l k : Nat) (st : TState q K) (s : Nat) :
    Except PyErr (TState q K) :=
  match mem (lLoc l s) (kLoc l k s) with
  | none => .error .uninit
  | some c =>
    .ok { lam := c.qmat * st.lam
          xi := c.qmat *ᵥ st.xi + c.qterm
          rows := fun s' => if s' = s then some (y2r f c ᵥ* st.lam, cr f c + y2r f c ⬝ᵥ st.xi) else st.rows s' }

/-- engine.py:164-179: inner loop for one `(l,k)`, `s in range(l_max + k_max)` (incremented bounds). -/
def tCell (f : Fun3 q p K) (mem : Mem q p K) (L Kk l k : Nat) (rows0 : Nat → Option (Row q K)) :
    Except PyErr (Nat → Option (Row q K)) :=
  match (List.range (L + Kk)).foldlM (tInner f mem l k) ⟨1, 0, rows0⟩ with
  | .error e => .error e
  | .ok st => .ok st.rows

/-- The tables `tmat, tterm` (engine.py:158-159), indexed `(l,k,s)`. -/
abbrev TMem (q K : Type) := Nat → Nat → Nat → Option (Row q K)

def tStep (f : Fun3 q p K) (mem : Mem q p K) (L Kk l : Nat) (b : TMem q K) (k : Nat) : Except PyErr (TMem q K) :=
  match tCell f mem L Kk l k (b l k) with
  | .error e => .error e
  | .ok rows => .ok (fun l' k' => if l' = l ∧ k' = k then rows else b l' k')

/-- engine.py:161-181 `preprocess_tmats_jit` with the parallel iterations in the order `sched l`. -/
def tLoop (f : Fun3 q p K) (mem : Mem q p K) (L Kk : Nat) (sched : Nat → List Nat) : Except PyErr (TMem q K) :=
  (List.range L).foldlM (fun b l => (sched l).foldlM (tStep f mem L Kk l) b) (fun _ _ _ => none)

/-- The result of preprocessing: `self.precalc_mat` with the table shape `L × Kk` (engine.py:141). -/
structure Tables (q p K : Type) where
  L : Nat
  Kk : Nat
  pq : Mem q p K
  b : BMem q K

end Tables

/-- engine.py:45-141 `preprocess_jittable`, with `l_max`, `k_max` as given by the caller (`self.lks`). -/
def preprocess [Field K] [DecidableEq K] (M : Sys q p K) (f : Fun3 q p K) (omg : Matrix p q K)
    (lam : Matrix q q K) (lMax kMax : Nat) (sched : Nat → List Nat) : Except PyErr (Tables q p K) :=
  let L := lMax + 1
  let Kk := kMax + 1
  match normalise M with
  | .error e => .error e
  | .ok M' =>
    match lkLoop M' omg lam L Kk with
    | .error e => .error e
    | .ok mem =>
      match bLoop f mem L sched with
      | .error e => .error e
      | .ok b => .ok ⟨L, Kk, mem, b⟩

/-- The serial schedule (`parallel=False`, engine.py:144). -/
def serial (kMax : Nat) : Nat → List Nat := fun _ => List.range (kMax + 1)

section Search
variable [Field K] [LinearOrder K]

/-- Table access `check_cnst(bmat, bterm, s, l, k, q0)` for a fixed state (engine.py:334-336). -/
abbrev Reader (K : Type) := Fin 5 → Nat → Nat → Except PyErr K

/-- engine.py:334-336 `check_cnst`, with the array bounds made explicit. -/
def checkCnst (t : Tables q p K) (q0 : q → K) : Reader K := fun i l k =>
  if l < t.L ∧ k < t.Kk then
    match t.b l k i with
    | none => .error .uninit
    | some row => .ok (row.1 ⬝ᵥ q0 + row.2)
  else .error .oob

/-- engine.py:277-280: the first loop of `find_lk`. -/
def slackLoop (rd : Reader K) (xbar : K) (L : Nat) (l : Nat) : Except PyErr Nat :=
  if l < L then
    match rd 2 l 0 with
    | .error e => .error e
    | .ok v =>
      if v - xbar > 0 then
        if l + 1 = L then .ok (l + 1) else slackLoop rd xbar L (l + 1)
      else .ok l
  else .error .oob
termination_by L - l

/-- engine.py:318-328: the five checks for one `(l,k)`, evaluated lazily in the order of the code;
`true` means that `return l, k` is reached. -/
def accepts (rd : Reader K) (xbar : K) (l k : Nat) : Except PyErr Bool := do
  if l ≠ 0 then
    if (← rd 0 l k) - xbar < 0 then return false
  if l > 1 then
    if (← rd 1 l k) - xbar < 0 then return false
  if (← rd 4 l k) - xbar < 0 then return false
  if (← rd 2 l k) - xbar > 0 then return false
  if k > 1 then
    if (← rd 3 l k) - xbar > 0 then return false
  return true

/-- The inner loop `for k in range(1, k_max)` of `bruite_wrapper`, from `k` on (engine.py:317-328). -/
def bruiteK (rd : Reader K) (xbar : K) (Kk l k : Nat) : Except PyErr (Option (Nat × Nat)) :=
  if k < Kk then
    match accepts rd xbar l k with
    | .error e => .error e
    | .ok true => .ok (some (l, k))
    | .ok false => bruiteK rd xbar Kk l (k + 1)
  else .ok none
termination_by Kk - k

/-- The outer loop `for l in range(l_max)` from `l` on (engine.py:316-328). -/
def bruiteL (rd : Reader K) (xbar : K) (L Kk l : Nat) : Except PyErr (Option (Nat × Nat)) :=
  if l < L then
    match bruiteK rd xbar Kk l 1 with
    | .error e => .error e
    | .ok (some r) => .ok (some r)
    | .ok none => bruiteL rd xbar L Kk (l + 1)
  else .ok none
termination_by L - l

/-- engine.py:312-330 `bruite_wrapper`, including the `999, 999` sentinel. -/
def bruiteWrapper (rd : Reader K) (xbar : K) (L Kk : Nat) : Except PyErr (Nat × Nat) :=
  match bruiteL rd xbar L Kk 0 with
  | .error e => .error e
  | .ok (some r) => .ok r
  | .ok none => .ok (999, 999)

/-- engine.py:293-304: the approximation loop.  `k` is the value before the increment; the result is `(k, flag)`. -/
def approxLoop (rd : Reader K) (xbar : K) (Kk : Nat) (k : Nat) (loopType : Bool) : Except PyErr (Nat × Nat) :=
  if k + 1 < Kk then
    match rd 4 0 (k + 1) with
    | .error e => .error e
    | .ok v =>
      if loopType = false then
        -- first iterate until r < r_bar
        let lt := decide (v - xbar < 0)
        if k + 2 = Kk then .ok (k + 1, 2) else approxLoop rd xbar Kk (k + 1) lt
      else if v - xbar > 0 then .ok (k + 1, 1)
      else if k + 2 = Kk then .ok (k + 1, 2)
      else approxLoop rd xbar Kk (k + 1) loopType
  else .error .oob
termination_by Kk - k

/-- engine.py:268-308 `find_lk`: returns `(l, k, flag)`. -/
def findLk (rd : Reader K) (xbar : K) (L Kk : Nat) : Except PyErr (Nat × Nat × Nat) :=
  match slackLoop rd xbar L 0 with
  | .error e => .error e
  | .ok l =>
    if l < L then
      match bruiteWrapper rd xbar L Kk with
      | .error e => .error e
      | .ok (l, k) =>
        if l = 999 then
          match approxLoop rd xbar Kk 0 false with
          | .error e => .error e
          | .ok (k, flag) => .ok (0, k, flag)
        else .ok (l, k, 0)
    else .ok (0, 0, 0)

/-- Result of a transition: `p`, `q`, `(l,k)` and the error flag (engine.py:264). -/
structure TRes (q p K : Type) where
  p : p → K
  q : q → K
  l : Nat
  k : Nat
  flag : Nat

/-- engine.py:227-264 `t_func_jit` in p-space.  `s` is `hstack((state, shocks))`.  `setK = none` stands for
`set_k == -1`; `some (l,k)` for imposed values, with Python's negative indices.  The rows of `qmat` that belong
to the shocks are cut off by the caller (tools.py:78-79), see `Model/Tools.lean`. -/
def tFuncJit (t : Tables q p K) (xbar : K) (s : q → K) (setLK : Option (Int × Int)) :
    Except PyErr (TRes q p K) :=
  let lkf : Except PyErr (Nat × Nat × Nat) :=
    match setLK with
    | none => findLk (checkCnst t s) xbar t.L t.Kk
    | some (sl, sk) =>
      if sk = -1 then findLk (checkCnst t s) xbar t.L t.Kk
      else
        match pyIdx t.L sl with
        | .error e => .error e
        | .ok l =>
          match pyIdx t.Kk sk with
          | .error e => .error e
          | .ok k => .ok (l, k, 0)
  match lkf with
  | .error e => .error e
  | .ok (l, k, flag) =>
    match t.pq l k with
    | none => .error .uninit
    | some c => .ok ⟨c.pmat *ᵥ s + c.pterm, c.qmat *ᵥ s + c.qterm, l, k, flag⟩

end Search
end Pydsge.Engine
