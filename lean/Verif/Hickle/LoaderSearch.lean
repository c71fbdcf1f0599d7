import Verif.Hickle.Registry
/-!
# The search for loader modules

`LoaderManager.load_loader` (lookup.py:1131-1315) once more, this time with `sys.modules`, the import machinery and the files in
which loader modules are looked for.  `Registry.lean` abstracts from them: there each package has a loader module or has none.
-/
namespace Verif.Search

/-- names of modules and files -/
abbrev Name := List Char

/-! ### fixed texts, as lists of characters -/

/-- `hickle` -/
def tHickle : Name := ['h', 'i', 'c', 'k', 'l', 'e']
/-- `loaders` -/
def tLoaders : Name := ['l', 'o', 'a', 'd', 'e', 'r', 's']
/-- `load_` -/
def tLoad : Name := ['l', 'o', 'a', 'd', '_']
/-- `hickle.loaders.load_` -/
def tPrefix : Name := tHickle ++ '.' :: tLoaders ++ '.' :: tLoad
/-- `hickle_loaders` -/
def tDir : Name := ['h', 'i', 'c', 'k', 'l', 'e', '_', 'l', 'o', 'a', 'd', 'e', 'r', 's']
/-- `.py` -/
def tPy : Name := ['.', 'p', 'y']
/-- `__main__` -/
def tMain : Name := ['_', '_', 'm', 'a', 'i', 'n', '_', '_']

/-! ### texts and paths -/

/-- `s.split('.', n)` -/
def splitMax : Nat → Name → List Name
  | 0, s => [s]
  | n + 1, s =>
    match s.dropWhile (· ≠ '.') with
    | [] => [s]
    | _ :: rest => s.takeWhile (· ≠ '.') :: splitMax n rest

/-- `s.rsplit('.')[0]`: without a limit `rsplit` splits at every dot -/
def beforeDot (s : Name) : Name := s.takeWhile (· ≠ '.')

/-- `os.path.basename` (posixpath) -/
def basename (p : Name) : Name := (p.reverse.takeWhile (· ≠ '/')).reverse

/-- `os.path.dirname` (posixpath): up to the last slash, without trailing slashes unless there is nothing else -/
def dirname (p : Name) : Name :=
  let head := (p.reverse.dropWhile (· ≠ '/')).reverse
  if head.all (· == '/') then head else (head.reverse.dropWhile (· == '/')).reverse

/-- `os.path.isabs` -/
def isabs (p : Name) : Bool := p.head? == some '/'

/-- `os.path.join(a, b)` -/
def join (a b : Name) : Name :=
  if isabs b then b else if a = [] ∨ a.getLast? = some '/' then a ++ b else a ++ '/' :: b

/-- `'hickle.loaders.load_{:s}'.format(n)`; the model refers to a loader module by `n` -/
def loaderName (n : Name) : Name := tPrefix ++ n

/-- the file looked for (lookup.py:1270-1273) -/
def loaderFile (packageFile pkg : Name) : Name :=
  join (join (dirname packageFile) tDir) (tLoad ++ pkg ++ tPy)

/-! ### modules, specs and files -/

/-- what hickle reads of a module spec -/
structure Spec where
  hasLocation : Bool
  origin : Name

/-- what hickle reads of a module: `__file__`, the spec made from `__loader__`, `__spec__`, and the tables `class_register` and
`exclude_register`; `none` where the attribute is missing or `None` -/
structure Mod where
  file : Option Name := none
  loader : Option Spec := none
  spec : Option Spec := none
  tables : Option LoaderMod := none

/-- outcome of running the code of a loader module: an exception or the module's tables, if it has them -/
abbrev Code := Except PyErr (Option LoaderMod)

/-- `open(path, 'rb')` -/
inductive FileRes where
  /-- `FileNotFoundError` -/
  | missing
  /-- any other exception: `NotADirectoryError`, `PermissionError`, … -/
  | refused (e : PyErr)
  | code (c : Code)

/-- the surroundings, which do not change -/
structure World where
  /-- `cls.__module__` -/
  moduleOf : Cls → Name
  /-- modules that could be imported by name (`sys.meta_path`) -/
  finder : Name → Option Spec
  /-- the loader modules in hickle/loaders -/
  own : Name → Option Code
  files : Name → FileRes

/-- the process: `sys.modules`, `_custom_loader_enabled_builtins` (lookup.py:851), the class level tables of `LoaderManager`, and, for
the theorems, the loader modules run to their end so far -/
structure Proc where
  modules : List (Name × Option Mod)
  /-- loader name (`none` for `''`) and file for `__main__` -/
  custom : List (Name × (Option Name × Name)) := [(tMain, (none, []))]
  reg : Registry := Registry.initial
  execs : List Name := []

abbrev PM := M Proc

/-- `sys.modules.get(name, None)` -/
def Proc.sys (s : Proc) (n : Name) : Option Mod := (Assoc.get? s.modules n).join

/-- `importlib.util.find_spec` of a top level name: of an imported module the `__spec__`, `ValueError` without one -/
def findSpec (w : World) (s : Proc) (n : Name) : Except PyErr (Option Spec) :=
  match Assoc.get? s.modules n with
  | some none => .ok none
  | some (some m) =>
    match m.spec with
    | some sp => .ok (some sp)
    | none => .error .valueError
  | none => .ok (w.finder n)

/-- the file of `__main__` (lookup.py:1225-1243); `none`: try the next class -/
def mainFile (w : World) (s : Proc) (m : Mod) : Except PyErr (Option Name) :=
  let file : Option Name := match m.file with
    | some f => some f
    | none => match m.loader with                                       -- 1226-1234
      | some sp => if sp.hasLocation then some sp.origin else none
      | none => none
  match file with
  | none => .ok none
  | some f =>
    if isabs f then .ok (some f)
    else match findSpec w s (basename (beforeDot f)) with               -- 1235-1243
      | .error e => .error e
      | .ok (some sp) => .ok (if sp.hasLocation then some sp.origin else none)
      | .ok none => .ok none

/-- loader and file for a package (lookup.py:1209-1246): the name of the loader, the name put into the file name and the file of the
package, if known.  `none`: try the next class. -/
def resolve (w : World) (pkg : Name) : PM (Option (Name × Name × Name)) := do
  let s ← M.get
  match Assoc.get? s.custom pkg with
  | none => pure (some (pkg, pkg, []))                                  -- 1212
  | some (some n, f) => pure (some (n, pkg, f))                         -- found before: 1209
  | some (none, _) =>
    match s.sys pkg with
    | none => pure none                                                 -- 1216-1223
    | some m =>
      match mainFile w s m with
      | .error e => M.throw e
      | .ok none => pure none
      | .ok (some f) => do
        let n := beforeDot (basename f)                                 -- 1244-1246
        M.modify fun s => { s with custom := Assoc.put s.custom pkg (some n, f) }
        pure (some (n, n, f))

/-- the file of a package (lookup.py:1262-1269) -/
def packageFile (w : World) (s : Proc) (pkg file : Name) : Except PyErr (Option Name) :=
  if file ≠ [] then .ok (some file)
  else
    let spec : Except PyErr (Option Spec) := match (s.sys pkg).bind (·.spec) with
      | some sp => .ok (some sp)
      | none => findSpec w s pkg
    match spec with
    | .error e => .error e
    | .ok (some sp) => .ok (if sp.hasLocation then some sp.origin else none)
    | .ok none => .ok none

/-- the code of a loader module that is not imported yet (lookup.py:1258-1289).  `file` is `none` for classes defined by loader
modules, for which `package_file` is still `None`. -/
def findCode (w : World) (s : Proc) (n pkg : Name) (file : Option Name) : Except PyErr (Option Code) :=
  -- `find_spec(loader_name)`; a `None` in `sys.modules` makes it return `None`
  let own := if (Assoc.get? s.modules (loaderName n)).isSome then none else w.own n
  match own with
  | some c => .ok (some c)
  | none =>
    match file with
    | none => .error .assertionError                                    -- 1261
    | some f =>
      match packageFile w s pkg f with
      | .error e => .error e
      | .ok none => .ok none
      | .ok (some f) =>
        match w.files (loaderFile f pkg) with                           -- 1274-1288
        | .code c => .ok (some c)
        | .refused e => .error e
        | .missing =>
          match w.files (loaderFile f pkg ++ ['c']) with
          | .code c => .ok (some c)
          | .refused e => .error e
          | .missing => .ok none

/-- the loader module: imported already or found and run now (lookup.py:1254-1295) -/
def getModule (w : World) (n pkg : Name) (file : Option Name) : PM (Option (Option LoaderMod)) := do
  let s ← M.get
  match s.sys (loaderName n) with
  | some m => pure (some m.tables)
  | none =>
    match findCode w s n pkg file with
    | .error e => M.throw e
    | .ok none => pure none
    | .ok (some (.error e)) => M.throw e
    | .ok (some (.ok t)) => do
      M.modify fun s => { s with modules := Assoc.put s.modules (loaderName n) (some { tables := t }), execs := n :: s.execs }
      pure (some t)

/-- work on the class level tables -/
def onReg {α : Type} (x : M Registry α) : PM α := fun s => ((x s.reg).1, { s with reg := (x s.reg).2 })

/-- the tables of a module are registered (lookup.py:1297-1301); `AttributeError` without tables -/
def register (n : Name) : Option LoaderMod → PM Unit
  | none => M.throw .attributeError
  | some lm => onReg (runLoader (String.ofList n) lm)

/-- a loader module of this name has been registered -/
def Proc.loaded (s : Proc) (n : Name) : Bool := s.reg.loaded.contains (String.ofList n)

/-- kinds of modules classes are defined in (lookup.py:1171-1208) -/
inductive Home where
  /-- any package but hickle -/
  | pkg (p : Name)
  /-- hickle, but not hickle.loaders -/
  | core
  /-- the loader module of this name -/
  | dummy (n : Name)
  /-- hickle.loaders, but not a loader module -/
  | odd
  /-- `__module__` is just `hickle` -/
  | bare

def homeOf (module : Name) : Home :=
  match splitMax 2 module with
  | p :: rest =>
    if p = tHickle then
      match rest with
      | [] => .bare
      | l :: rest =>
        if l ≠ tLoaders then .core
        else match rest with
          | [] => .odd
          | t :: _ => if tLoad.isPrefixOf t && !(t.drop 5).contains '.' then .dummy (t.drop 5) else .odd
    else .pkg p
  | [] => .odd

/-- the loop over the mro in `load_loader` (lookup.py:1163-1315) -/
def lookupAux (w : World) (m : Manager) (c : Cls) (base : Option String) : List Cls → PM (Cls × Entry)
  | [] => pure (.object, ⟨.pickled, "pickle", true⟩)
  | k :: ks => do
    let s ← M.get
    match m.typeEntry s.reg k with
    | some e => pure (c, e)
    | none =>
      match homeOf (w.moduleOf k) with
      | .bare => M.throw .indexError                                    -- 1176: package_list[1]
      | .core =>
        match base with
        | some b => if (m.loadFn s.reg b).isSome || (m.container s.reg b).isSome
                    then pure (c, ⟨.notDumpable, b, true⟩) else M.throw .runtimeError
        | none => M.throw .runtimeError
      | .odd => lookupAux w m c base ks                                 -- 1185-1194, with a warning
      | .dummy n => do
        onReg (putDummy m k ⟨.notDumpable, "NotHicklable", false⟩)
        if s.loaded n then pure (c, ⟨.notDumpable, "NotHicklable", false⟩)
        else do
          let t ← getModule w n n none
          match t with
          | none => lookupAux w m c base ks
          | some t => do
            register n t
            let s' ← M.get
            match m.typeEntry s'.reg k with
            | some e => pure (c, e)
            | none => lookupAux w m c base ks
      | .pkg p => do
        let r ← resolve w p
        match r with
        | none => lookupAux w m c base ks
        | some (n, p', f) =>
          if s.loaded n then lookupAux w m c base ks
          else do
            let t ← getModule w n p' (some f)
            match t with
            | none => lookupAux w m c base ks
            | some t => do
              register n t
              let s' ← M.get
              match m.typeEntry s'.reg k with
              | some e => pure (c, e)
              | none => lookupAux w m c base ks

/-- `LoaderManager.load_loader(py_obj_type, base_type=...)` (lookup.py:1131-1315) for a class with this mro -/
def lookup (w : World) (m : Manager) (c : Cls) (mro : List Cls) (base : Option String) : PM (Cls × Entry) := lookupAux w m c base mro

end Verif.Search
