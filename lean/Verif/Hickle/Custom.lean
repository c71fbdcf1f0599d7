import Verif.Py.Err
import Verif.Py.Assoc
/-!
# The drivers of dump and load with arbitrary loaders

`LoaderManager.register_class` lets a program hand its own dump function, load function and container class to
hickle.  Here `_dump` and `_load` are modelled with all of them as parameters: classes `C`, what an object holds
besides references `D`, values of attributes `V`, what is in a node besides attributes and members `P`, and
containers `K` are arbitrary types, the functions are arbitrary functions.
Simplifications: the register of classes does not change during the call (C43, C50 are about that); the types
table is left out, a node holds its class and base type (C27); members are loaded through the inherited
`PyContainer.filter`; load functions of datasets are containers that are given no items.
-/
namespace Verif.Custom

/-- a Python object: its class, what it holds, and the objects it refers to -/
structure Obj (C D : Type) where
  cls : C
  data : D
  kids : List Nat
  deriving DecidableEq, Repr

/-- objects by address -/
abbrev Heap (C D : Type) := List (Obj C D)

/-- attributes of a node -/
abbrev Attrs (V : Type) := List (String × V)

/-- a sub item as `create_dataset` yields it: name, object, attributes (hickle.py:144) -/
structure Sub (V : Type) where
  name : String
  addr : Nat
  attrs : Attrs V
  deriving Repr

/-- what a dump function returns: the content of the new node, the attributes it has set on it, the sub items,
and the heap with the objects it has made.  Simplification: the objects the generator of sub items makes are made
when the function is called. -/
structure Made (C D V P : Type) where
  payload : P
  own : Attrs V
  subs : List (Sub V)
  heap : Heap C D

/-- entry of a class: `(create_dataset, base_type, memoise)` (lookup.py:1003) -/
structure Entry (C D V P : Type) where
  create : Heap C D → Obj C D → Except PyErr (Made C D V P)
  base : String
  memoise : Bool

/-- a container class (helpers.py:35-140): `__init__(h5_attrs, base_type, object_type)`, `append`, `convert`.
Simplification: objects made from names and attributes are made by `convert`. -/
structure Restorer (C D V P K : Type) where
  init : P → Attrs V → C → K
  append : K → String → Nat → Attrs V → Except PyErr K
  convert : K → Heap C D → Except PyErr (Nat × Heap C D)

/-- what is registered -/
structure Loaders (C D V P K : Type) where
  /-- `loader.load_loader(cls)[1]` -/
  entry : C → Entry C D V P
  /-- `loader.hkl_container_dict.get(base_type, RecoverGroupContainer)` and
  `loader.hkl_types_dict.get(base_type, recover_custom_dataset)` -/
  restorer : String → Restorer C D V P K
  /-- `pickle.dumps(py_obj)` in `create_pickled_dataset` (lookup.py:1460-1501): the pickle string of the object at an address -/
  pickle : Heap C D → Nat → Except PyErr P
  /-- the class `object`, which is what nodes without type are loaded as (lookup.py:735-742) -/
  object : C

/-- what a node is: the representation of an object, with its class (`none`: no type stored), base type, content
and attributes; or a reference to another node (hickle.py:113-117) -/
inductive Kind (C V P : Type) where
  | obj (cls : Option C) (base : String) (payload : P) (attrs : Attrs V)
  | ref (target : Nat) (attrs : Attrs V)

/-- a node of the file: the group it is in (`none`: the root) and its name there -/
structure Node (C V P : Type) where
  parent : Option Nat
  name : String
  kind : Kind C V P

/-- the file: nodes in the order of their creation -/
abbrev File (C V P : Type) := List (Node C V P)

variable {C D V P K : Type}

/-- `h_node.attrs` -/
def Kind.attrs : Kind C V P → Attrs V
  | .obj _ _ _ at' => at'
  | .ref _ at' => at'

/-- members of a group in the order of their creation, with their numbers starting from `i` -/
def members (g : Nat) : File C V P → Nat → List (String × Nat)
  | [], _ => []
  | nd :: l, i => if nd.parent = some g then (nd.name, i) :: members g l (i + 1) else members g l (i + 1)

/-- `h_group.items()` but for the order -/
def links (file : File C V P) (g : Nat) : List (String × Nat) := members g file 0

/-- state of a dump -/
structure DState (C D V P : Type) where
  heap : Heap C D
  file : File C V P
  memo : List (Nat × Nat)

/-- creation of a node (h5py: names are not used twice in a group) -/
def push (s : DState C D V P) (nd : Node C V P) : Except PyErr (DState C D V P) :=
  if s.file.any fun m => m.parent == nd.parent && m.name == nd.name then .error .valueError
  else .ok { s with file := s.file ++ [nd] }

/-- attributes after `memo.store_type` (hickle.py:129), which sets `type`, and
`h_node.attrs.update((name,attr) for name,attr in attrs.items() if name != 'type')` (132); the type is in the node itself -/
def nodeAttrs (own attrs : Attrs V) : Attrs V := (attrs ++ own).filter fun p => p.1 ≠ "type"

/-- one action after the other -/
def each {α σ : Type} (f : α → σ → Except PyErr σ) : List α → σ → Except PyErr σ
  | [], s => .ok s
  | x :: l, s => match f x s with
    | .ok s' => each f l s'
    | .error e => .error e

/-- `memo[py_obj_id] = (h_node, py_obj)` (hickle.py:139-140) -/
def remember (s : DState C D V P) (memoise : Bool) (a n : Nat) : DState C D V P :=
  if memoise then { s with memo := Assoc.put s.memo a n } else s

/-- `_dump` (hickle.py:77-145); `fuel` is the remaining recursion depth -/
def dump (L : Loaders C D V P K) : Nat → Nat → Option Nat → String → Attrs V → DState C D V P → Except PyErr (DState C D V P)
  | 0, _, _, _, _, _ => .error .recursionError
  | fuel + 1, a, parent, name, attrs, s =>
    match Assoc.get? s.memo a with
    | some n => push s ⟨parent, name, .ref n attrs⟩                                        -- 105-117
    | none =>
      match s.heap[a]? with
      | none => .error .unmodelled
      | some o =>
        match (L.entry o.cls).create s.heap o with                                         -- 122-124
        | .ok m =>
          match push { s with heap := m.heap } ⟨parent, name, .obj (some o.cls) (L.entry o.cls).base m.payload (nodeAttrs m.own attrs)⟩ with
          | .error e => .error e
          | .ok s1 => each (fun sub => dump L fuel sub.addr (some s.file.length) sub.name sub.attrs) m.subs
              (remember s1 (L.entry o.cls).memoise a s.file.length)                        -- 139-145
        | .error .notHicklable =>                                                          -- 125-126
          match L.pickle s.heap a with
          | .error e => .error e
          | .ok p =>
            match push s ⟨parent, name, .obj none "pickle" p (nodeAttrs [] attrs)⟩ with
            | .error e => .error e
            | .ok s1 => .ok (remember s1 (L.entry o.cls).memoise a s.file.length)
        | .error e => .error e

/-- state of a load -/
structure LState (C D : Type) where
  heap : Heap C D
  memo : List (Nat × Nat)

/-- the class a node is loaded as (lookup.py:708-792) -/
def Loaders.clsOf (L : Loaders C D V P K) (c : Option C) : C := c.getD L.object

/-- the loop over the members (hickle.py:449-450): load the member, hand it to the container with its attributes -/
def items (file : File C V P) (r : Restorer C D V P K) (load : Nat → LState C D → Except PyErr (Nat × LState C D)) :
    List (String × Nat) → K → LState C D → Except PyErr (K × LState C D)
  | [], k, s => .ok (k, s)
  | (name, m) :: l, k, s =>
    match load m s with
    | .error e => .error e
    | .ok (x, s') =>
      match file[m]? with
      | none => .error .unmodelled
      | some nd =>
        match r.append k name x nd.kind.attrs with
        | .error e => .error e
        | .ok k' => items file r load l k' s'

/-- `_load` (hickle.py:402-466): the object of node `n`, which the caller then appends to its container.  References
are loaded through `ExpandReferenceContainer` (lookup.py:1431-1447) and are not memoised.  `order` is the order in which
HDF5 gives the members.  Simplification: the object is remembered before the container of the caller gets it, not
after; the container can not see the difference. -/
def load (L : Loaders C D V P K) (file : File C V P) (order : List (String × Nat) → List (String × Nat)) :
    Nat → Nat → LState C D → Except PyErr (Nat × LState C D)
  | 0, _, _ => .error .recursionError
  | fuel + 1, n, s =>
    match Assoc.get? s.memo n with
    | some x => .ok (x, s)                                                                 -- 429-432
    | none =>
      match file[n]? with
      | none => .error .unmodelled
      | some ⟨_, _, .ref t _⟩ => load L file order fuel t s
      | some ⟨_, _, .obj cls base p attrs⟩ =>
        match items file (L.restorer base) (load L file order fuel) (order (links file n)) ((L.restorer base).init p attrs (L.clsOf cls)) s with
        | .error e => .error e
        | .ok (k, s1) =>
          match (L.restorer base).convert k s1.heap with
          | .error e => .error e
          | .ok (x, h) =>
            .ok (x, ⟨h, if (L.entry (L.clsOf cls)).memoise then Assoc.put s1.memo n x else s1.memo⟩)

/-- `dump(obj, file)` (hickle.py:148-247): the object goes to `data` of an empty group -/
def dumpTop (L : Loaders C D V P K) (fuel : Nat) (heap : Heap C D) (a : Nat) : Except PyErr (File C V P) :=
  (dump L fuel a none "data" [] ⟨heap, [], []⟩).map (·.file)

/-- `load(file)` (hickle.py:263-398): the object of `data`, which is the first node, and the objects there are now -/
def loadTop (L : Loaders C D V P K) (order : List (String × Nat) → List (String × Nat)) (fuel : Nat) (file : File C V P) :
    Except PyErr (Nat × Heap C D) :=
  (load L file order fuel 0 ⟨[], []⟩).map fun r => (r.1, r.2.heap)

/-! ### registration -/

/-- the arguments of `register_class` (lookup.py:901-904); the load function and the container class are one (see above) -/
structure Reg (C D V P K : Type) where
  cls : C
  base : String
  create : Heap C D → Obj C D → Except PyErr (Made C D V P)
  restorer : Restorer C D V P K
  memoise : Bool := true

/-- the entry of the class -/
def Reg.entry (r : Reg C D V P K) : Entry C D V P := ⟨r.create, r.base, r.memoise⟩

/-- what does not come from registrations: the classes and their bases, pickle, and what is used if a base type is not known -/
structure Core (C D V P K : Type) where
  /-- `cls.mro()` -/
  mro : C → List C
  object : C
  pickle : Heap C D → Nat → Except PyErr P
  unpickle : Restorer C D V P K
  recover : Restorer C D V P K

/-- `__py_types__[None]`, and `__hkl_functions__[None]` with `__hkl_container__[None]` (lookup.py:876-894) -/
structure Tables (C D V P K : Type) where
  types : List (C × Entry C D V P)
  conts : List (String × Restorer C D V P K)

/-- base types that are registered by hickle itself and can not be registered again (lookup.py:993-999, 1399) -/
def reserved : List String := ["pickle", "!node-reference!", "!recover!"]

/-- `LoaderManager.register_class` (lookup.py:901-1011) for the global set; of the classes that only hickle itself may register
`object` is modelled.  A class or a base type that has been registered before is silently replaced (1002-1009). -/
def register [DecidableEq C] (core : Core C D V P K) (r : Reg C D V P K) (t : Tables C D V P K) : Except PyErr (Tables C D V P K) :=
  if r.cls = core.object then .error .typeError
  else if reserved.contains r.base then .error .valueError
  else .ok ⟨Assoc.put t.types r.cls r.entry, Assoc.put t.conts r.base r.restorer⟩

/-- one registration after the other, as in a program that sets up its loaders -/
def registerAll [DecidableEq C] (core : Core C D V P K) (regs : List (Reg C D V P K)) : Except PyErr (Tables C D V P K) :=
  each (register core) regs ⟨[], [("pickle", core.unpickle)]⟩

/-- `load_loader` (lookup.py:1131-1315): the entry of the first class in the mro that has one.  Without any `create_pickled_dataset` is
used (1315), as if a dump function had raised `NotHicklable`.  Loader modules are taken to be loaded (C44). -/
def Tables.entry [DecidableEq C] (core : Core C D V P K) (t : Tables C D V P K) (c : C) : Entry C D V P :=
  ((core.mro c).findSome? (Assoc.get? t.types)).getD ⟨fun _ _ => .error .notHicklable, "pickle", true⟩

/-- what dump and load use -/
def Tables.loaders [DecidableEq C] (core : Core C D V P K) (t : Tables C D V P K) : Loaders C D V P K where
  entry := t.entry core
  restorer := fun b => (Assoc.get? t.conts b).getD core.recover
  pickle := core.pickle
  object := core.object

end Verif.Custom
