import Mathlib.Data.List.Basic

/-!
# The report of the current best guess (stats.py:19-56 `pmdm_report`)
-/

set_option autoImplicit false

namespace Pydsge.Report

/-- The ways in which the report can fail. -/
inductive Fail
  /-- stats.py:23: there is no terminal, `split()` gives less than two words (IndexError) -/
  | noTerminal
  /-- stats.py:42: `int(cols) - 8` is zero -/
  | zeroDivision
  /-- stats.py:43: `prep_estim` has not run -/
  | keyError
  /-- stats.py:43-44: `array_split` with a number of sections that is not positive -/
  | valueError
  /-- stats.py:48-50: `format` with less arguments than fields -/
  | indexError
  deriving DecidableEq, Repr

/-- Texts. -/
abbrev Txt := List Char

/-- What is printed; the text of the header is left out. -/
inductive Line
  | header
  | row (t : Txt)
  | blank
  deriving DecidableEq, Repr

/-- numpy `array_split`: sizes of the sections; the first `n % k` are longer by one. -/
def sizes (n k : Nat) : List Nat := List.replicate (n % k) (n / k + 1) ++ List.replicate (k - n % k) (n / k)

/-- Cut a list into pieces of the given sizes. -/
def pieces {α : Type} : List Nat → List α → List (List α)
  | [], _ => []
  | n :: ns, xs => xs.take n :: pieces ns (xs.drop n)

/-- numpy `array_split(xs, k)`. -/
def arraySplit {α : Type} (xs : List α) (k : Int) : Except Fail (List (List α)) :=
  if k ≤ 0 then .error .valueError else .ok (pieces (sizes xs.length k.toNat) xs)

/-- `"{:>8}"`: padded with blanks on the left to eight characters; longer texts are left as they are. -/
def cell (t : Txt) : Txt := List.replicate (8 - t.length) ' ' ++ t

/-- stats.py:48-50: `("{:>8}" * (n + 1)).format("", *ts)`; arguments without a field are ignored. -/
def fmt (n : Nat) (ts : List Txt) : Except Fail Txt :=
  if ts.length < n then .error .indexError else .ok (((([] : Txt) :: ts).take (n + 1)).flatMap cell)

/-- stats.py:46-51: the loop over the sections; `zip` stops with the shorter list. -/
def body : List (List Txt × List Txt) → List Line × Option Fail
  | [] => ([.blank], none)
  | (ps, vs) :: cs =>
    match fmt ps.length ps with
    | .error e => ([], some e)
    | .ok a =>
      match fmt ps.length vs with
      | .error e => ([.row a], some e)
      | .ok b => let r := body cs; (.row a :: .row b :: .blank :: r.1, r.2)

/-- stats.py:42: number of sections. -/
def lnum (nprior : Nat) (cols : Int) : Int := Int.fdiv (nprior * 8) (cols - 8) + 1

/-- stats.py:19-56: `cols` is the second word of `stty size`, if there is one; `nprior` is `len(self.prior)`; `names` is
`self.fdict["prior_names"]`, if there is one; `vals` are the values as they are printed (after rounding). -/
def report (cols : Option Int) (nprior : Nat) (names : Option (List Txt)) (vals : List Txt) : List Line × Option Fail :=
  match cols with
  | none => ([], some .noTerminal)
  | some c =>
    if c = 8 then ([.header], some .zeroDivision)
    else
      match names with
      | none => ([.header], some .keyError)
      | some ns =>
        match arraySplit ns (lnum nprior c) with
        | .error e => ([.header], some e)
        | .ok ps =>
          match arraySplit vals (lnum nprior c) with
          | .error e => ([.header], some e)
          | .ok vs => let r := body (ps.zip vs); (.header :: r.1, r.2)

end Pydsge.Report
