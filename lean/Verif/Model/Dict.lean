import Verif.Model.GenSys

/-!
# Models given as dictionaries: `gen_sys_from_dict` (pydsge/gensys.py:19-100)

Dictionaries and model objects have addresses, because the model keeps the caller's dictionary as its `fdict` (l.51) and the module keeps the
models it has made (`processed_mdicts`). The part of a dictionary that describes the model is abstract (`C`), and so is what
`gen_sys` makes of it (`S`), except for the entries treated separately below.
-/

set_option autoImplicit false

namespace Pydsge.DictModel

variable {C S D Y : Type}

/-- The contents of a dictionary: the description of the model, the entries `l_max` and `k_max` (l.26-27) and `data` (clsmethods.py:327). -/
structure MDict (C D : Type) where
  core : C
  lMax : Option (Option Int)
  kMax : Option (Option Int)
  data : Option D

/-- A model object: the solution, the address of its `fdict` and the attribute `data`. -/
structure Obj (S D : Type) where
  sol : S
  fdict : Nat
  data : Option D

structure St (C S D Y : Type) where
  dicts : Nat → MDict C D
  objs : List (Obj S D)
  /-- `processed_mdicts`; `none`: not in `globals()` -/
  cache : Option (List (Y × Nat))

/-- `dump` is `cpickle.dumps`, `solve` is l.44-94 (see below and `Model/GenSys.lean`). -/
structure Lib (C S D Y : Type) where
  dump : MDict C D → Y
  solve : C → Option Int → Option Int → Except PyErr S

section
variable [DecidableEq Y]

/-- l.42-100: the model is made, put into the cache and returned. -/
def process (lib : Lib C S D Y) (st : St C S D Y) (d : Nat) (cache : List (Y × Nat)) (lMax kMax : Option Int) :
    St C S D Y × Except PyErr Nat :=
  let md := st.dicts d
  match lib.solve md.core lMax kMax with
  | .error e => ({ st with cache := some cache }, .error e)
  | .ok s =>
    let o := st.objs.length
    ({ st with objs := st.objs ++ [⟨s, d, none⟩], cache := some ((lib.dump md, o) :: cache) }, .ok o)

/-- gensys.py:19-100 `gen_sys_from_dict` for the dictionary at address `d`; returns the address of the model. A cached entry is replaced
if the key is there already (the new entry is found first). -/
def genSysFromDict (lib : Lib C S D Y) (st : St C S D Y) (d : Nat) (lMax kMax : Option Int) (force : Bool) : St C S D Y × Except PyErr Nat :=
  let md : MDict C D := { st.dicts d with lMax := some lMax, kMax := some kMax }
  let st := { st with dicts := fun d' => if d' = d then md else st.dicts d' }
  match force, st.cache with
  | false, some cache =>
    match cache.find? (fun e => e.1 = lib.dump md) with
    | some e => (st, .ok e.2)
    | none => process lib st d cache lMax kMax
  | _, _ => process lib st d [] lMax kMax

/-- clsmethods.py:325-328: the end of `load_data` on the model at address `o`. -/
def putData (st : St C S D Y) (o : Nat) (x : D) : St C S D Y :=
  match st.objs[o]? with
  | none => st
  | some m =>
    { st with
      objs := st.objs.set o { m with data := some x }
      dicts := fun d => if d = m.fdict then { st.dicts d with data := some x } else st.dicts d }

/-- What can happen: the caller makes or changes a dictionary, asks for a model, loads data into a model. -/
inductive Op (C D : Type)
  | dict (d : Nat) (md : MDict C D)
  | make (d : Nat) (lMax kMax : Option Int) (force : Bool)
  | data (o : Nat) (x : D)

def step (lib : Lib C S D Y) (st : St C S D Y) : Op C D → St C S D Y
  | .dict d md => { st with dicts := fun d' => if d' = d then md else st.dicts d' }
  | .make d l k f => (genSysFromDict lib st d l k f).1
  | .data o x => putData st o x

def start (dicts : Nat → MDict C D) : St C S D Y := ⟨dicts, [], none⟩

def run (lib : Lib C S D Y) (st : St C S D Y) (ops : List (Op C D)) : St C S D Y := ops.foldl (step lib) st

end

/-! ## Entries of the dictionary -/

/-- gensys.py:54-60: the bound. -/
def xBar {K : Type} [Field K] (entry : Option K) : K := entry.getD (-1)

/-- gensys.py:66-72, 243: `len(ZZ0)` of `mdict.get("ZZ0")`, then `ZZ0` is `None` if it has no rows. -/
def zz0 {R : Type} (entry : Option (List R)) : Except PyErr (Option (List R)) :=
  match entry with
  | none => .error .typeError
  | some [] => .ok none
  | some (r :: rs) => .ok (some (r :: rs))

end Pydsge.DictModel
