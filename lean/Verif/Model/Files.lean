import Verif.Model.Stats

/-!
# Files, data, indices and samples (pydsge/clsmethods.py, pydsge/mpile.py)

Paths are lists of characters. The file system is a map from files to dictionaries; `canon` takes path names to files (several names may be
the same file). Verbose output is left out.
-/

set_option autoImplicit false

namespace Pydsge.Files

abbrev Path := List Char

def npz : Path := ['.', 'n', 'p', 'z']

/-- A `path` argument. -/
inductive PathArg
  | none
  | str (s : Path)
  | other

/-- `os.path.isabs` (POSIX). -/
def isAbs (s : Path) : Bool := s.head? = some '/'

/-- `os.path.join(a, b)` (POSIX). -/
def join (a b : Path) : Path :=
  if isAbs b then b
  else if a = [] ∨ a.getLast? = some '/' then a ++ b
  else a ++ '/' :: b

/-- `s[-4:] == ".npz"`, `s.endswith(".npz")`. -/
def endsNpz (s : Path) : Bool := s.drop (s.length - 4) = npz

/-- The file that `np.savez_compressed(file)` writes: the ending is added unless it is there. -/
def savezName (s : Path) : Path := if endsNpz s then s else s ++ npz

def resSuffix : Path := ['_', 'r', 'e', 's']

/-- clsmethods.py:157-166: the file name used by `save_rdict`. -/
def saveName (selfPath name : Path) (path : PathArg) (suffix : Path) : Path :=
  let p := match path with
    | .str s => s
    | _ => name ++ resSuffix
  let p := if endsNpz p then p.take (p.length - 4) else p
  let p := if isAbs p then p else join selfPath p
  savezName (p ++ suffix)

/-- clsmethods.py:182-191: the file name used by `load_rdict`. `path[-4]` is a single character and never equal to `".npz"`; it raises if
`path` is shorter. -/
def loadName (selfPath name : Path) (path : PathArg) (suffix : Path) : Except PyErr Path :=
  let p : Except PyErr Path := match path with
    | .none => .ok (name ++ resSuffix)
    | .str s => .ok s
    | .other => .error .typeError
  match p with
  | .error e => .error e
  | .ok p =>
    let p := p ++ suffix
    if p.length < 4 then .error .indexError
    else
      let p := p ++ npz
      .ok (if isAbs p then p else join selfPath p)

section
variable {F D : Type} [DecidableEq F]

/-- A call of `save_rdict`. -/
structure Save (D : Type) where
  path : PathArg
  suffix : Path
  rdict : D

/-- clsmethods.py:151-173 `save_rdict`, for a file that can be written. -/
def saveRdict (canon : Path → F) (selfPath name : Path) (fs : F → Option D) (s : Save D) : F → Option D :=
  Function.update fs (canon (saveName selfPath name s.path s.suffix)) (some s.rdict)

/-- clsmethods.py:176-193 `load_rdict`. -/
def loadRdict (canon : Path → F) (selfPath name : Path) (fs : F → Option D) (path : PathArg) (suffix : Path) : Except PyErr D :=
  match loadName selfPath name path suffix with
  | .error e => .error e
  | .ok f =>
    match fs (canon f) with
    | none => .error .osError
    | some d => .ok d

end

/-! ## Indices (clsmethods.py:19-42) -/

/-- `list(xs).index(v)`. -/
def indexOf (xs : List String) (v : String) : Except PyErr Nat :=
  match xs.findIdx? (· = v) with
  | none => .error .valueError
  | some i => .ok i

/-- clsmethods.py:19-33 `vix` for a list of names (a single name becomes a list). -/
def vix (vv : List String) (dontfail : Bool) : List String → Except PyErr (List Nat)
  | [] => .ok []
  | v :: vs =>
    match indexOf vv v with
    | .ok i =>
      match vix vv dontfail vs with
      | .error e => .error e
      | .ok is => .ok (i :: is)
    | .error e => if dontfail then vix vv dontfail vs else .error e

/-- clsmethods.py:36-42 `oix`. -/
def oix (obs : List String) (vs : List String) : Except PyErr (List Nat) := vs.mapM (indexOf obs)

/-! ## Data (clsmethods.py:286-330) -/

section
variable {I K : Type}

/-- A data frame: index and named columns (`none` is NaN). Names may occur more than once. -/
structure Frame (I K : Type) where
  index : List I
  cols : List (String × List (Option K))

/-- `df[names]`: for each name, all columns of that name. -/
def Frame.select (df : Frame I K) (names : List String) : Frame I K :=
  ⟨df.index, names.flatMap fun n => df.cols.filter fun c => c.1 = n⟩

/-- The rows at the given positions. -/
def Frame.rows (df : Frame I K) (pos : List Nat) : Frame I K :=
  ⟨pos.filterMap (df.index[·]?), df.cols.map fun c => (c.1, pos.filterMap (c.2[·]?))⟩

/-- The attributes that `load_data` sets. -/
structure DataState (I K : Type) where
  data : Option (Frame I K)
  fdictData : Option (Frame I K)
  fdictObs : Option (List String)

/-- clsmethods.py:286-330 `load_data`, for a data frame. `loc` gives the positions that `d.loc[start:end]` selects, from the index only. -/
def loadData (loc : List I → Except PyErr (List Nat)) (obs : List String) (st : DataState I K) (df : Frame I K) :
    Except PyErr (Frame I K) × DataState I K :=
  if obs.any (fun o => o ∉ df.cols.map Prod.fst) then (.error .keyError, st)
  else
    let d := df.select obs
    match loc d.index with
    | .error e => (.error e, st)
    | .ok pos =>
      let d := d.rows pos
      if d.cols.any (fun c => c.2.any (·.isNone)) then (.error .exception, st)
      else (.ok d, ⟨some d, some d, some obs⟩)

/-- `self.Z = np.array(self.data)` (filtering.py:154), column by column; raises if there are no data. -/
def filterZ (st : DataState I K) : Except PyErr (List (List (Option K))) :=
  match st.data with
  | none => .error .attributeError
  | some d => .ok (d.cols.map Prod.snd)

end

/-! ## Samples of the chain (clsmethods.py:333-346, mpile.py:16-34) -/

section
variable {P : Type}

/-- `xs[i]` for positions of a one-dimensional sample; raises beyond the end. -/
def takeAll (xs : List P) : List Nat → Except PyErr (List P)
  | [] => .ok []
  | i :: is =>
    match xs[i]? with
    | none => .error .indexError
    | some x =>
      match takeAll xs is with
      | .error e => .error e
      | .ok r => .ok (x :: r)

/-- `int(np.ceil(60 / nwalks))`. -/
def recentOf (nwalks : Nat) : Nat := (60 + nwalks - 1) / nwalks

/-- clsmethods.py:333-346 `get_sample(size, chain)`. `stored` is `self.get_chain()`: draws by walkers. `chain[:, -recent, :]` takes one walker.
`choice n size` is `np.random.choice(np.arange(n), size, False)`, which raises if `size > n`. -/
def getSample (choice : Nat → Nat → List Nat) (stored : List (List P)) (nwalks : Nat) (size : Nat) (_chain : Option (List (List P))) :
    Except PyErr (List P) :=
  if nwalks = 0 then .error .exception
  else
    let recent := recentOf nwalks
    if recent > stored.length then .error .exception
    else if recent > nwalks then .error .indexError
    else
      let sample := stored.filterMap fun ws => ws[nwalks - recent]?
      if size > recent * nwalks then .error .valueError
      else takeAll sample (choice (recent * nwalks) size)

/-- mpile.py:16-34 `posterior_sampler(nsamples)`. `choices n k` is `random.choices(range(n), k=k)`, which raises if there is nothing to choose
from. -/
def posteriorSampler (choices : Nat → Nat → List Nat) (stored : List (List P)) (tune : Int) (nsamples : Nat) : Except PyErr (List P) :=
  let sample := (sliceFrom stored (-tune)).flatten
  if sample.length = 0 ∧ nsamples ≠ 0 then .error .indexError
  else takeAll sample (choices sample.length nsamples)

end

end Pydsge.Files
