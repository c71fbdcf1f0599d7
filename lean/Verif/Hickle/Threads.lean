import Verif.Hickle.StepDump
/-!
# Several threads dumping and loading at the same time

Each thread has a file of its own.  What they share are the class level tables of `LoaderManager` (lookup.py:876-899), which
`load_loader` (lookup.py:1131-1315) fills while calls are running and which no lock protects.  A step is one call of h5py, one
statement on hickle's own data, or one operation on one of the shared tables; between any two steps of a thread any number of steps of
the others can come.

Simplifications: looking into the chain of type tables is one step; the two keys of a base type (bytes and str) are set in one step;
finding and executing the code of a loader module is part of the step that decides to register it (two threads may execute it twice,
as in the code, where `sys.modules` is set after the execution).
-/
namespace Verif.Threads

/-! ### registration in single steps -/

/-- one operation of `register_class` (lookup.py:901-1011), `register_class_exclude` (1017-1053) or the end of a registration (1301) -/
inductive Put where
  | check (a : RegArgs)                   -- 955-1000
  | type (a : RegArgs)                    -- 1002-1003
  | fn (a : RegArgs)                      -- 1004-1006
  | cont (a : RegArgs)                    -- 1007-1009
  | exCheck (base : String) (o : Opt)     -- 1033-1048
  | exFn (base : String) (o : Opt)        -- 1049-1050
  | exCont (base : String) (o : Opt)      -- 1051-1052
  | mark (p : String)                     -- 1301

/-- change the tables of an option; `LookupError` if there is no such option (lookup.py:1010-1011) -/
def onTables (o : Opt) (f : Tables → Tables) : M Registry Unit := do
  let r ← M.get
  match r.tables o with
  | none => M.throw .lookupError
  | some t => M.modify fun r => r.setTables o (f t)

def Put.exec : Put → M Registry Unit
  | .check a => do
    let r ← M.get
    if a.cls = .object ∧ a.src ≠ .core then M.throw .typeError
    else if ((Assoc.get? r.glob.fns a.base).isSome || (Assoc.get? r.glob.conts a.base).isSome)
        && (bangQuoted a.base || disallowInOption.contains a.base) then M.throw .valueError
    else pure ()
  | .type a => match a.dump with
    | some d => onTables a.option fun t => { t with types := Assoc.put t.types a.cls ⟨d, a.base, a.memoise⟩ }
    | none => pure ()
  | .fn a => match a.load with
    | some f => onTables a.option fun t => { t with fns := Assoc.put t.fns a.base f }
    | none => pure ()
  | .cont a => match a.cont with
    | some c => onTables a.option fun t => { t with conts := Assoc.put t.conts a.base c }
    | none => pure ()
  | .exCheck b _ =>
    if b.toList = [] then M.throw .indexError
    else if disallowedToIgnore.contains b then M.throw .valueError
    else pure ()
  | .exFn b o => onTables o fun t => { t with fns := Assoc.put t.fns b .nothing }
  | .exCont b o => onTables o fun t => { t with conts := Assoc.put t.conts b .noContainer }
  | .mark p => M.modify fun r => { r with loaded := p :: r.loaded }

/-- the operations by which a loader module is registered (lookup.py:1297-1301) -/
def puts (p : String) (lm : LoaderMod) : List Put :=
  lm.register.flatMap (fun a => [.check a, .type a, .fn a, .cont a]) ++
  (lm.exclude.flatMap (fun e => [.exCheck e.1 e.2, .exFn e.1 e.2, .exCont e.1 e.2]) ++ [.mark p])

/-! ### `load_loader` in single steps -/

/-- where a thread is in `load_loader` -/
inductive Pc where
  /-- `types_dict.get` comes next for the first of these classes (1163-1166) -/
  | at (ks : List Cls)
  /-- nothing was found for `k` (1171-1252) -/
  | home (k : Cls) (ks : List Cls)
  /-- a class of a loader module has been marked as not dumpable (1201-1207) -/
  | dummy (k : Cls) (l : String) (ks : List Cls)
  /-- registering a loader module (1297-1301) -/
  | reg (k : Cls) (ks : List Cls) (todo : List Put)
  /-- `types_dict.get` comes again for `k` (1304) -/
  | again (k : Cls) (ks : List Cls)
  | done (r : Except PyErr (Cls × Entry))

/-- one step of `load_loader(c, base_type=base)` (lookup.py:1131-1315; `Registry.lean`: `loadLoaderAux`) -/
def tick (env : Env) (m : Manager) (c : Cls) (base : Option String) : Pc → Registry → Pc × Registry
  | .at [], r => (.done (.ok (.object, ⟨.pickled, "pickle", true⟩)), r)
  | .at (k :: ks), r =>
    match m.typeEntry r k with
    | some e => (.done (.ok (c, e)), r)
    | none => (.home k ks, r)
  | .home k ks, r =>
    match k.origin env.u with
    | .core =>
      match base with
      | some b => if (m.loadFn r b).isSome || (m.container r b).isSome
                  then (.done (.ok (c, ⟨.notDumpable, b, true⟩)), r) else (.done (.error .runtimeError), r)
      | none => (.done (.error .runtimeError), r)
    | .dummy l => (.dummy k l ks, (putDummy m k ⟨.notDumpable, "NotHicklable", false⟩ r).2)
    | .pkg p =>
      if r.loaded.contains p then (.at ks, r)
      else match env.loaderMod p with
        | none => (.at ks, r)
        | some lm => (.reg k ks (puts p lm), r)
  | .dummy k l ks, r =>
    if r.loaded.contains l then (.done (.ok (c, ⟨.notDumpable, "NotHicklable", false⟩)), r)
    else match env.loaderMod l with
      | none => (.at ks, r)
      | some lm => (.reg k ks (puts l lm), r)
  | .reg k ks [], r => (.again k ks, r)
  | .reg k ks (w :: ws), r =>
    match w.exec r with
    | (.ok _, r') => (.reg k ks ws, r')
    | (.error e, r') => (.done (.error e), r')
  | .again k ks, r =>
    match m.typeEntry r k with
    | some e => (.done (.ok (c, e)), r)
    | none => (.at ks, r)
  | .done x, r => (.done x, r)

/-! ### threads -/

/-- A thread: its remaining steps and its own state, that is its file and what it has made so far.  The registry in the own state is a
placeholder: the shared one is put in for each step. -/
inductive Thread (α : Type) : Type 1 where
  | run {τ : Type} (p : Prog (Session × τ) α) (s : Session × τ)
  /-- within `load_loader` -/
  | look {τ : Type} (m : Manager) (c : Cls) (base : Option String) (pc : Pc) (k : Except PyErr (Cls × Entry) → Prog (Session × τ) α) (s : Session × τ)

/-- the registry of the process as a thread sees it -/
def withReg {τ : Type} (s : Session × τ) (r : Registry) : Session × τ := ({ s.1 with reg := r }, s.2)

variable {α : Type}

/-- one step of a thread; a thread that has finished does nothing -/
def Thread.step (env : Env) : Thread α → Registry → Thread α × Registry
  | .run (.ret x) s, r => (.run (.ret x) s, r)
  | .run (.act _ x k) s, r =>
    let y := x (withReg s r)
    (.run (k y.1) y.2, y.2.1.reg)
  | .run (.look m c b k) s, r => (.look m c b (.at (c.mro env.u)) k s, r)
  | .look _ _ _ (.done x) k s, r => (.run (k x) s, r)
  | .look m c b pc k s, r => (.look m c b (tick env m c b pc r).1 k s, (tick env m c b pc r).2)

/-- the process: the shared tables and the threads -/
structure Sys (α : Type) where
  reg : Registry
  threads : List (Thread α)

/-- thread `i` makes a step -/
def Sys.step (env : Env) (σ : Sys α) (i : Nat) : Sys α :=
  match σ.threads[i]? with
  | none => σ
  | some t => ⟨(t.step env σ.reg).2, σ.threads.set i (t.step env σ.reg).1⟩

/-- a schedule says whose turn it is -/
def Sys.run (env : Env) (σ : Sys α) (schedule : List Nat) : Sys α := schedule.foldl (Sys.step env) σ

/-- a thread that is going to dump `a` into a file of its own -/
def thread (a : DumpArgs) (s : Session) : Thread Unit := .run (Prog.dumpTop a) (s, { heap := a.heap, store := [], reg := {} })

/-- outcome of a thread and its file, once it has finished -/
def Thread.result : Thread α → Option (Except PyErr α × Session)
  | .run (.ret x) s => some (x, s.1)
  | _ => none

end Verif.Threads
