import Verif.Model.Py

/-!
# Caches of the parser: parsed models (parser.py:22-44, 475-560) and function calls (parser.py:357-370)
-/

set_option autoImplicit false

namespace Pydsge.Cache

/-! ## Parsed models -/

variable {B : Type}

/-- What matters of a model object: what `parse` made of the files, `fdict["yaml_raw"]`, `fdict.get("ffile_raw")` and `path`. -/
structure PModel (B : Type) where
  body : B
  yaml : String
  ffile : Option String
  path : String
  deriving DecidableEq

/-- The files, the objects of the process, the cached ones (`cached_models`, in the order of its keys) and those the caller holds. -/
structure St (B : Type) where
  fs : String → Option String
  heap : List (PModel B)
  cache : List Nat
  held : List Nat

/-- parser.py:500: `mfile[:-5] + "_funcs.py"`. -/
def funcFile (mfile : String) : String := String.ofList (sliceTo mfile.toList (-5)) ++ "_funcs.py"

/-- parser.py:30-37. -/
def useCached (mtxt : String) (ftxt : Option String) (m : PModel B) : Bool :=
  match ftxt with
  | none => m.yaml = mtxt
  | some t => m.yaml = mtxt && m.ffile = some t

/-- parser.py:22-44: the first model of the cache that fits. -/
def crawl (mtxt : String) (ftxt : Option String) (st : St B) : Option (PModel B) :=
  (st.cache.filterMap (fun r => st.heap[r]?)).find? (useCached mtxt ftxt)

/-- parser.py:476-560: `DSGE.read`; returns the object. `deepcopy` makes a new object. -/
def read (parse : String → Option String → Except PyErr B) (dirname : String → String) (st : St B) (mfile : String) (nocache : Bool) :
    St B × Except PyErr Nat :=
  match st.fs mfile with
  | none => (st, .error .osError)
  | some mtxt =>
    let ftxt := st.fs (funcFile mfile)
    match crawl mtxt ftxt st, nocache with
    | some m, false =>
      ({ st with heap := st.heap ++ [m], held := st.heap.length :: st.held }, .ok st.heap.length)
    | _, _ =>
      match parse mtxt ftxt with
      | .error e => (st, .error e)
      | .ok b =>
        let m : PModel B := ⟨b, mtxt, ftxt, dirname mfile⟩
        ({ st with heap := st.heap ++ [m, m], cache := st.cache ++ [st.heap.length + 1], held := st.heap.length :: st.held },
          .ok st.heap.length)

/-- What happens in a process: files change, the caller changes an object it holds, the caller reads a model. -/
inductive Ev (B : Type)
  | files (fs : String → Option String)
  | change (r : Nat) (m : PModel B)
  | read (mfile : String) (nocache : Bool)

def step (parse : String → Option String → Except PyErr B) (dirname : String → String) (st : St B) : Ev B → St B
  | .files fs => { st with fs := fs }
  | .change r m => if r ∈ st.held then { st with heap := st.heap.set r m } else st
  | .read mfile nocache => (read parse dirname st mfile nocache).1

def start (fs : String → Option String) : St B := ⟨fs, [], [], []⟩

def run (parse : String → Option String → Except PyErr B) (dirname : String → String) (fs : String → Option String) (evs : List (Ev B)) : St B :=
  evs.foldl (step parse dirname) (start fs)

/-! ## Function calls -/

variable {F A Y R : Type} [DecidableEq F] [DecidableEq Y]

/-- parser.py:357-370: one call of the wrapped function `f` with arguments `x`. `key` is what hashing and `==` see of the arguments
(`none`: not hashable); `fn` is the function itself, with its exceptions. -/
def call (key : A → Option Y) (fn : F → A → Except PyErr R) (sol : List ((F × Y) × R)) (f : F) (x : A) :
    List ((F × Y) × R) × Except PyErr R :=
  match key x with
  | none => (sol, .error .typeError)
  | some y =>
    match sol.find? (fun e => e.1 = (f, y)) with
    | some e => (sol, .ok e.2)
    | none =>
      match fn f x with
      | .error e => (sol, .error e)
      | .ok r => (((f, y), r) :: sol, .ok r)

/-- The cache after a sequence of calls. -/
def calls (key : A → Option Y) (fn : F → A → Except PyErr R) (l : List (F × A)) : List ((F × Y) × R) :=
  l.foldl (fun sol fx => (call key fn sol fx.1 fx.2).1) []

end Pydsge.Cache
