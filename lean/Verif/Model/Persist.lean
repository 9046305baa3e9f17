import Verif.Model.Files

/-!
# Saving and loading models (clsmethods.py:45-51, 108-148, 250-283, parser.py:475-642)

`fdict` is a map from keys to values. A value is `None`, a text or some other object (`X`: numbers, arrays, pickles). Archives keep values
(`np.savez_compressed`, `np.load`): what comes back is an array around the value, with the same `str`. Keys that are no valid
keyword arguments of `np.savez_compressed` do not occur. Verbose output is left out.
-/

set_option autoImplicit false

namespace Pydsge.Persist

open Pydsge.Files

inductive Val (X : Type)
  | none
  | txt (s : String)
  | obj (x : X)
  deriving DecidableEq

abbrev FDict (X : Type) := String → Option (Val X)

/-- The libraries: `str` of other objects, pickling of models (`B`: what `parse` makes of the files; and the attribute `description`, if it is set
at that time) and of data, `DSGE.parse`. `loadsModel` is `none` if unpickling, or the test pickling after it, raises (parser.py:585-588). -/
structure Lib (B D X : Type) where
  show' : X → String
  dumpModel : B → Option (Val X) → FDict X → X
  loadsModel : Val X → Option (B × Option (Val X))
  dumpData : D → X
  loadsData : Val X → Option D
  parse : String → Option String → Except PyErr B

/-- The attributes that matter here; `none`: not set. `filter` has `R` and `P`, each of which may be missing. No statement of the package
assigns `raw_yaml`. -/
structure Mod (B D X : Type) where
  body : B
  fdict : FDict X
  name : String
  path : Path
  description : Option (Val X)
  backendFile : Option (Val X)
  tune : Option (Val X)
  filter : Option (Option X × Option X)
  data : Option D
  rawYaml : Option String

variable {B D X : Type}

/-- `str(v)`. -/
def Val.str (lib : Lib B D X) : Val X → String
  | .none => "None"
  | .txt s => s
  | .obj x => lib.show' x

def FDict.set (fd : FDict X) (k : String) (v : Val X) : FDict X := fun k' => if k' = k then some v else fd k'

/-- parser.py:529-543: a model that `read` has parsed. -/
def ofRead (lib : Lib B D X) (mtxt : String) (ftxt : Option String) (modName : B → String) (dir : Path) : Except PyErr (Mod B D X) :=
  match lib.parse mtxt ftxt with
  | .error e => .error e
  | .ok b =>
    let fd : FDict X := FDict.set (fun _ => none) "yaml_raw" (.txt mtxt)
    let fd := match ftxt with
      | some t => fd.set "ffile_raw" (.txt t)
      | none => fd
    let fd := fd.set "model_dump" (.obj (lib.dumpModel b none fd))
    .ok ⟨b, fd, modName b, dir, some (.txt (modName b)), none, none, none, none, none⟩

/-- clsmethods.py:325-328: the end of `load_data`; `obs` are the observables. -/
def putData (lib : Lib B D X) (m : Mod B D X) (d : D) (obs : X) : Mod B D X :=
  { m with data := some d, fdict := (m.fdict.set "data" (.obj (lib.dumpData d))).set "obs" (.obj obs) }

/-- `if hasattr(self, o): self.fdict[o] = self.o`. -/
def FDict.setIf (fd : FDict X) (k : String) : Option (Val X) → FDict X
  | none => fd
  | some v => fd.set k v

/-- clsmethods.py:129-140: `self.fdict` when it is saved. -/
def metaDict (m : Mod B D X) : FDict X :=
  let fd := m.fdict.setIf "description" m.description
  let fd := fd.setIf "backend_file" m.backendFile
  let fd := fd.setIf "tune" m.tune
  let fd := fd.set "name" (.txt m.name)
  match m.filter with
  | none => fd
  | some (none, _) => fd
  | some (some R, none) => fd.set "filter_R" (.obj R)
  | some (some R, some P) => (fd.set "filter_R" (.obj R)).set "filter_P" (.obj P)

def metaSuffix : Path := ['_', 'm', 'e', 't', 'a']

/-- clsmethods.py:127: `filename or os.path.join(self.path, self.name + "_meta")`. -/
def metaName (m : Mod B D X) : Option Path → Path
  | some (c :: cs) => c :: cs
  | _ => join m.path (m.name.toList ++ metaSuffix)

/-- The archives on disk. -/
abbrev Store (X : Type) := Path → Option (FDict X)

/-- clsmethods.py:123-148 `save_meta` (`Model.save`), for a file that can be written. -/
def saveMeta (st : Store X) (m : Mod B D X) (filename : Option Path) : Store X × Mod B D X :=
  let fd := metaDict m
  (Function.update st (savezName (metaName m filename)) (some fd), { m with fdict := fd })

/-- What matters of a cached model (parser.py:22-44): the parsed model, `fdict["yaml_raw"]`, `fdict.get("ffile_raw")`, `description`. -/
structure Cached (B X : Type) where
  body : B
  yaml : String
  ffile : Option String
  description : Option (Val X)

/-- `os.path.dirname` (POSIX), up to trailing slashes. -/
def dirname (p : Path) : Path := (p.reverse.dropWhile (· ≠ '/')).tail.reverse

/-- parser.py:591-616: the model if it cannot be unpickled. `ftxt` is always a text here. -/
def reparse (lib : Lib B D X) (cache : List (Cached B X)) (fd : FDict X) (mtxt : String) : Except PyErr (B × Option (Val X)) :=
  let ftxt := Val.str lib ((fd "ffile_raw").getD .none)
  match cache.find? (fun c => c.yaml = mtxt && c.ffile = some ftxt) with
  | some c => .ok (c.body, c.description)
  | none =>
    match lib.parse mtxt ((fd "ffile_raw").map (Val.str lib)) with
    | .error e => .error e
    | .ok b => .ok (b, none)

/-- parser.py:564-642 `DSGE.load`. `forceParse` is also set for old versions of Python (l.573-575). -/
def load (lib : Lib B D X) (cache : List (Cached B X)) (st : Store X) (npzfile : Path) (forceParse : Bool) : Except PyErr (Mod B D X) :=
  match st npzfile with
  | none => .error .osError
  | some fd =>
    match fd "yaml_raw" with
    | none => .error .keyError
    | some y =>
      let mtxt := Val.str lib y
      let unpickled : Option (B × Option (Val X)) := if forceParse then none else (fd "model_dump").bind lib.loadsModel
      let parsed : Except PyErr (B × Option (Val X)) :=
        match unpickled with
        | some r => .ok r
        | none => reparse lib cache fd mtxt
      match parsed with
      | .error e => .error e
      | .ok (b, descr) =>
        match fd "name" with
        | none => .error .keyError
        | some n =>
          match fd "data" with
          | none => .error .keyError
          | some dv =>
            match lib.loadsData dv with
            | none => .error .exception
            | some d =>
              let fd := fd.set "model_dump" (.obj (lib.dumpModel b descr fd))
              let fd : FDict X := fun k => (fd k).map fun v => if Val.str lib v = "None" then .none else v
              .ok ⟨b, fd, Val.str lib n, dirname npzfile, descr, none, none, none, some d, none⟩

/-- clsmethods.py:45-51 `get_tune`. -/
def getTune (m : Mod B D X) : Except PyErr (Val X) :=
  match m.tune with
  | some t => .ok t
  | none =>
    match m.fdict "tune" with
    | some t => .ok t
    | none => .error .keyError

/-- clsmethods.py:252-269: title and description in `info`. -/
def info (lib : Lib B D X) (m : Mod B D X) : Except PyErr (String × String) :=
  match m.description with
  | some v => .ok (m.name, v.str lib)
  | none =>
    match m.fdict "description" with
    | some v => .ok (m.name, v.str lib)
    | none => .error .keyError

/-! ## `write_yaml` (clsmethods.py:108-120) -/

def yamlEnd : Path := ['.', 'y', 'a', 'm', 'l']

/-- clsmethods.py:110-111. -/
def yamlName (f : Path) : Path := if f.drop (f.length - 5) ≠ yamlEnd then f ++ yamlEnd else f

/-- clsmethods.py:108-120 `write_yaml` on the text files: the file is opened, and emptied, before `self.raw_yaml` is looked up. -/
def writeYaml (fs : Path → Option String) (m : Mod B D X) (filename : Path) : (Path → Option String) × Option PyErr :=
  let f := yamlName filename
  match m.rawYaml with
  | none => (Function.update fs f (some ""), some .attributeError)
  | some t => (Function.update fs f (some t), none)

/-! ## What can happen to a model -/

/-- Keys that the package itself keeps. -/
def reserved : List String := ["yaml_raw", "ffile_raw", "model_dump", "name", "data", "obs", "description", "backend_file", "tune", "filter_R", "filter_P"]

/-- Operations on a model: `load_data`, settings that other methods store in `fdict` (`prep_estim`, `mcmc`), attributes set by methods or the user,
saving, and saving followed by loading what was saved (perhaps in another process: `cache` are the models that have been parsed there). -/
inductive Op (B D X : Type)
  | putData (d : D) (obs : X)
  | setting (k : String) (v : Val X)
  | name (s : String)
  | path (p : Path)
  | description (v : Val X)
  | tune (v : Val X)
  | filter (f : Option X × Option X)
  | save (filename : Option Path)
  | reload (filename : Option Path) (forceParse : Bool) (cache : List (Cached B X))

/-- One operation; a failing one leaves the model. -/
def step (lib : Lib B D X) (st : Store X) (m : Mod B D X) : Op B D X → Store X × Mod B D X
  | .putData d obs => (st, putData lib m d obs)
  | .setting k v => (st, if k ∈ reserved then m else { m with fdict := m.fdict.set k v })
  | .name s => (st, { m with name := s })
  | .path p => (st, { m with path := p })
  | .description v => (st, { m with description := some v })
  | .tune v => (st, { m with tune := some v })
  | .filter f => (st, { m with filter := some f })
  | .save f => saveMeta st m f
  | .reload f force cache =>
    let r := saveMeta st m f
    match load lib cache r.1 (savezName (metaName m f)) force with
    | .error _ => r
    | .ok m' => (r.1, m')

def run (lib : Lib B D X) (st : Store X) (m : Mod B D X) (ops : List (Op B D X)) : Store X × Mod B D X :=
  ops.foldl (fun s op => step lib s.1 s.2 op) (st, m)

end Pydsge.Persist
