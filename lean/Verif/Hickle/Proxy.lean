import Verif.H5.Store
import Verif.Hickle.Dump
/-!
# Attribute proxies for legacy files

Models `hickle/helpers.py` `H5NodeFilterProxy` (143-186) with `collections.ChainMap`, and its use in
`hickle/loaders/load_scipy.py` `SparseMatrixContainer._redirect_to_ndarray` (81-107).

`proxy.attrs` is `ChainMap({}, h5_node.attrs)`: map 0 is a dictionary of the proxy, map 1 is the file.  The members `maps` and `parents`
of the ChainMap, through which one could reach map 1, are not modelled; hickle does not use them.
-/
namespace Verif

/-- an `H5NodeFilterProxy`: the wrapped node and `attrs.maps[0]` -/
structure Proxy where
  node : NodeId
  over : Attrs := []
  deriving DecidableEq, Repr

/-- the file and the proxies made so far -/
structure PState where
  store : Store
  proxies : List Proxy
  deriving DecidableEq

abbrev PM := M PState

/-- the maps of a ChainMap -/
inductive MapNo where
  | first | file
  deriving DecidableEq, Repr

/-- `H5NodeFilterProxy(h5_node)` (helpers.py:156-161): the number of the new proxy -/
def proxyNew (n : NodeId) : PM Nat := fun s => (.ok s.proxies.length, { s with proxies := s.proxies ++ [⟨n, []⟩] })

/-- the proxy with a number -/
def proxyGet (p : Nat) : PM Proxy := fun s =>
  match s.proxies[p]? with
  | some x => (.ok x, s)
  | none => (.error .unmodelled, s)

/-- `maps[i][k] = v` -/
def mapSet (i : MapNo) (p : Nat) (k : String) (v : AttrVal) : PM Unit := do
  let x ← proxyGet p
  match i with
  | .first => M.modify fun s => { s with proxies := s.proxies.set p { x with over := Assoc.put x.over k v } }
  | .file => M.modify fun s => { s with store := s.store.setAttr x.node k v }

/-- attributes of a node in the file -/
def fileAttrs (s : Store) (n : NodeId) : Attrs := (s.attrs n).getD []

/-- `ChainMap.__getitem__`: the maps in order -/
def proxyLook (p : Nat) (k : String) : PM (Option AttrVal) := do
  let x ← proxyGet p
  let s ← M.get
  pure (match Assoc.get? x.over k with
    | some v => some v
    | none => Assoc.get? (fileAttrs s.store x.node) k)

/-- what is done with `proxy.attrs` -/
inductive POp where
  | get (k : String)                       -- attrs[k]
  | getD (k : String) (d : AttrVal)        -- attrs.get(k, d)
  | has (k : String)                       -- k in attrs
  | set (k : String) (v : AttrVal)         -- attrs[k] = v
  | del (k : String)                       -- del attrs[k]
  | pop (k : String)                       -- attrs.pop(k)
  | setdefault (k : String) (v : AttrVal)  -- attrs.setdefault(k, v)
  | update (kvs : Attrs)                   -- attrs.update(kvs)
  | clear                                  -- attrs.clear()
  | assign                                 -- proxy.attrs = ...
  deriving DecidableEq, Repr

inductive PRes where
  | value (v : AttrVal)
  | flag (b : Bool)
  | done
  deriving DecidableEq, Repr

/-- delete a key of a dictionary -/
def dropKey (l : Attrs) (k : String) : Attrs := l.filter fun p => p.1 ≠ k

/-- one operation on a proxy (`collections.ChainMap`; helpers.py:163-186) -/
def proxyOp (p : Nat) (op : POp) : PM PRes :=
  match op with
  | .get k => do
    match ← proxyLook p k with
    | some v => pure (.value v)
    | none => M.throw .keyError
  | .getD k d => do
    match ← proxyLook p k with
    | some v => pure (.value v)
    | none => pure (.value d)
  | .has k => do
    let r ← proxyLook p k
    pure (.flag r.isSome)
  | .set k v => do
    mapSet .first p k v
    pure .done
  | .del k => do                                   -- only in maps[0]
    let x ← proxyGet p
    match Assoc.get? x.over k with
    | none => M.throw .keyError
    | some _ => do
      M.modify fun s => { s with proxies := s.proxies.set p { x with over := dropKey x.over k } }
      pure .done
  | .pop k => do                                   -- only from maps[0]
    let x ← proxyGet p
    match Assoc.get? x.over k with
    | none => M.throw .keyError
    | some v => do
      M.modify fun s => { s with proxies := s.proxies.set p { x with over := dropKey x.over k } }
      pure (.value v)
  | .setdefault k v => do
    match ← proxyLook p k with
    | some w => pure (.value w)
    | none => do
      mapSet .first p k v
      pure (.value v)
  | .update kvs => do
    M.forEach (fun (kv : String × AttrVal) => mapSet .first p kv.1 kv.2) kvs
    pure .done
  | .clear => do
    let x ← proxyGet p
    M.modify fun s => { s with proxies := s.proxies.set p { x with over := [] } }
    pure .done
  | .assign => M.throw .attributeError

/-- a history of operations on several proxies; an exception does not end it -/
def runProxy : List (Nat × POp) → PState → PState
  | [], s => s
  | (p, op) :: h, s => runProxy h (proxyOp p op s).2

/-! ### sparse matrices of hickle 4 -/

/-- `SparseMatrixContainer` while it is filled: `object_type` and `base_type` -/
structure SparseHead where
  type : AttrVal
  base : Option AttrVal

/-- the dtype of a dataset -/
def Node.dtype : Node → Option DT
  | ⟨_, _, .dset (.array d _ _)⟩ | ⟨_, _, .dset (.vec d _)⟩ => some d
  | _ => none

/-- `if item.attrs.get('np_dtype') is None: item.attrs['np_dtype'] = item.dtype...` (load_scipy.py:93-95, 104-106) -/
def ensureDtype (p : Nat) (n : NodeId) : PM Unit := do
  match ← proxyLook p "np_dtype" with
  | some _ => pure ()
  | none => do
    let s ← M.get
    match (s.store[n]?).bind Node.dtype with
    | none => M.throw .attributeError
    | some d => mapSet .first p "np_dtype" (.dt d)

def sparseNames : List PyStr := [ps "data", ps "indices", ps "indptr", ps "shape"]

/-- one round of `_redirect_to_ndarray` (load_scipy.py:88-107): what is yielded, and the head -/
def redirectItem (head : Option SparseHead) (name : PyStr) (n : NodeId) : PM (Option Nat × Option SparseHead) := do
  let p ← proxyNew n
  if name = ps "data" then do
    let t ← proxyLook p "type"
    let b ← proxyLook p "base_type"
    match t, b with
    | some t, some b => do
      ensureDtype p n
      mapSet .first p "type" (.pcls .ndarray)
      mapSet .first p "base_type" (.bytes "ndarray")
      ensureDtype p n
      pure (some p, some ⟨t, some b⟩)
    | _, _ => M.throw .keyError
  else if !sparseNames.contains name then pure (none, head)
  else if name = ps "shape" then do
    mapSet .first p "type" (.pcls .tuple)
    mapSet .first p "base_type" (.bytes "tuple")
    pure (some p, head)
  else do
    mapSet .first p "type" (.pcls .ndarray)
    mapSet .first p "base_type" (.bytes "ndarray")
    ensureDtype p n
    pure (some p, head)

/-- `_redirect_to_ndarray` (load_scipy.py:81-107): the members yielded with their proxies -/
def redirect : Option SparseHead → List (PyStr × NodeId) → PM (List (PyStr × Nat) × Option SparseHead)
  | head, [] => pure ([], head)
  | head, (name, n) :: ms => do
    let (p, head) ← redirectItem head name n
    let (ps, head) ← redirect head ms
    pure (match p with
      | some p => ((name, p) :: ps, head)
      | none => (ps, head))

end Verif
