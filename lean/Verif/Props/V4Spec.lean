import Verif.Hickle.LegacyV4
import Verif.Hickle.LoadArr
import Verif.Props.V3Spec
/-!
# What is in a file of hickle 4.0

`Puts l name v ms`: version 4.0 stores the object `v` under `name` as the members `ms` of a group.  The source of version 4.0 is not part of
the repository; the layout is the one of `hickle/tests/legacy_hkls/hickle_4.0.0.hkl` and the one the readers describe
(load_builtins.py:366-393 and 395-414, 424-430, 486-508; load_numpy.py:215-234, 248-262; load_scipy.py:84-104; lookup.py:1410-1416).
`Puts` includes objects that do not come back.  `Same v w`: what a user expects for `v`.  `Clean l v`: the objects that come back; each
condition excludes a defect, shown in `C47.lean`.
-/
namespace Verif.V4
open V3 (Nd SpK)

/-- value of a Python number -/
def Val.num? : Val → Option NpVal
  | .bool b => some (.b b)
  | .int i => some (.i i)
  | .float x => some (.f x)
  | .cplx x y => some (.c x y)
  | _ => Option.none

/-- class and name of the base type of a number -/
def numCls : NpVal → Cls × String
  | .b _ => (.bool, "bool")
  | .i _ => (.int, "int")
  | .f _ => (.float, "float")
  | .c .. => (.complex, "complex")

def SK.cls : SK → Cls
  | .list => .list
  | .tuple => .tuple
  | .set => .set

def SK.base : SK → String
  | .list => "list"
  | .tuple => "tuple"
  | .set => "set"

/-- class of a sparse matrix and the name of its base type -/
def spCls : SpK → Cls × String
  | .csr => (.csr, "csr_matrix")
  | .csc => (.csc, "csc_matrix")
  | .bsr => (.bsr, "bsr_matrix")

/-- base type of a key; a dictionary with other keys, or with `None` as key, is pickled as a whole -/
def keyBase : V3.PV → Option String
  | .bool _ => some "bool"
  | .int _ => some "int"
  | .float _ => some "float"
  | .cplx .. => some "complex"
  | .str _ => some "str"
  | .bytes _ => some "bytes"
  | .seq .tuple _ => some "tuple"
  | _ => Option.none

/-- the class of an object: the one with this name, or the `k`-th class of the program, derived from it -/
def own (u : Option Nat) (c : Cls) : Ty := .cls (match u with | some k => .user k | Option.none => c)

/-- an object of the class of the program, or the plain one -/
def wrap (u : Option Nat) (v : Val) : Val := match u with | some k => .inst k v | Option.none => v

/-- a string as byte string: ASCII -/
def ascii (s : PyStr) : Bytes := s.map UInt8.ofNat

def IsAscii (s : PyStr) : Prop := ∀ c ∈ s, c < 128

/-- length of the longest string, at least 1 -/
def widest (ss : List PyStr) : Nat := ss.foldr (fun s m => max s.length m) 1

/-- an object under a name -/
inductive Puts (l : Libs) : PyStr → Val → Members → Prop
  /-- dill writes the class of `None` as `__builtin__.NoneType` -/
  | none (name : PyStr) (d : DSet) : Puts l name .none [(name, .dset d { type := some .lost, base := some "None" })]
  | num (name : PyStr) (v : Val) (x : NpVal) : v.num? = some x → x.ok = true →
      Puts l name v [(name, .dset (.array ⟨x.dt, [], [x]⟩) { type := some (.cls (numCls x).1), base := some (numCls x).2 })]
  | str (name s : PyStr) : Puts l name (.str s) [(name, .dset (.text s) { type := some (.cls .str), base := some "str" })]
  | bytes (name : PyStr) (b : Bytes) : Puts l name (.bytes b) [(name, .dset (.chars b) { type := some (.cls .bytes), base := some "bytes" })]
  | np (name : PyStr) (x : NpVal) :
      Puts l name (.np x) [(name, .dset (.array ⟨x.dt, [], [x]⟩) { type := some (.cls x.cls), base := some "np_scalar", npDtype := some (.dt x.dt) })]
  | arr (name : PyStr) (a : Nd) :
      Puts l name (.arr a) [(name, .dset (.array a) { type := some (.cls .ndarray), base := some "ndarray", npDtype := some (.dt a.dt) })]
  | matrix (name : PyStr) (a : Nd) : a.shape.length = 2 →
      Puts l name (.matrix a) [(name, .dset (.array a) { type := some (.cls .matrix), base := some "ndarray", npDtype := some (.dt a.dt) })]
  /-- numpy strings have at least the length 1 -/
  | sarr (name : PyStr) (w : Nat) (shape : List Nat) (data : List PyStr) : 1 ≤ w → (∀ s ∈ data, IsAscii s ∧ widthOk w s = true) →
      data.length = shape.foldr (· * ·) 1 →
      Puts l name (.sarr w shape data)
        [(name, .dset (.fixed w shape (data.map ascii)) { type := some (.cls .ndarray), base := some "ndarray", npDtype := some (.u w) })]
  | barr (name : PyStr) (w : Nat) (shape : List Nat) (data : List Bytes) :
      Puts l name (.barr w shape data)
        [(name, .dset (.fixed w shape data) { type := some (.cls .ndarray), base := some "ndarray", npDtype := some (.s w) })]
  /-- the mask is the next member -/
  | masked (name : PyStr) (a : Nd) (mask : List Bool) : a.data.length = mask.length →
      Puts l name (.masked a mask)
        [(name, .dset (.array a) { type := some (.cls .masked), base := some "ndarray_masked_data", npDtype := some (.dt a.dt) }),
         (maskName name, .dset (.array ⟨.bool, a.shape, mask.map .b⟩) { type := some (.cls .ndarray), base := some "ndarray_masked_mask" })]
  | sparse (name : PyStr) (k : SpK) (d ix ip : Nd) (shape : List Nat) :
      Puts l name (.sparse k d ix ip shape) [(name, .group { type := some .returnFirst, base := some (spCls k).2 }
        [(ps "data", .dset (.array d) { type := some (.cls (spCls k).1), base := some (spCls k).2 }),
         (ps "indices", .dset (.array ix) { type := some .lost, base := some ((spCls k).2 ++ "_indices") }),
         (ps "indptr", .dset (.array ip) { type := some .lost, base := some ((spCls k).2 ++ "_indptr") }),
         (ps "shape", .dset (.array ⟨.int64, [shape.length], shape.map fun n => NpVal.i (Int.ofNat n)⟩) { type := some .lost, base := some ((spCls k).2 ++ "_shape") })])]
  | opaque (name : PyStr) (c st : Nat) : Puts l name (.opaque c st) [(name, .dset (.pickle c st) { base := some "pickle" })]
  /-- a list, tuple or set of numbers of the same type -/
  | nums (name : PyStr) (u : Option Nat) (k : SK) (items : List Val) (vs : List NpVal) (dt : DT) : items ≠ [] → items.mapM Val.num? = some vs →
      (∀ x ∈ vs, x.dt = dt ∧ x.ok = true) → (u ≠ Option.none → k = .list) →
      Puts l name (wrap u (.seq k items)) [(name, .dset (.array ⟨dt, [vs.length], vs⟩) { type := some (own u k.cls), base := some k.base })]
  /-- of strings -/
  | strs (name : PyStr) (k : SK) (ss : List PyStr) : ss ≠ [] → (∀ s ∈ ss, IsAscii s ∧ s.getLast? ≠ some 0) →
      Puts l name (.seq k (ss.map .str))
        [(name, .dset (.fixed (widest ss) [ss.length] (ss.map ascii)) { type := some (.cls k.cls), base := some k.base, strType := some "str" })]
  /-- of byte strings -/
  | bytess (name : PyStr) (k : SK) (w : Nat) (bs : List Bytes) : bs ≠ [] →
      Puts l name (.seq k (bs.map .bytes))
        [(name, .dset (.fixed w [bs.length] bs) { type := some (.cls k.cls), base := some k.base, strType := some "bytes" })]
  /-- of nothing -/
  | empty (name : PyStr) (u : Option Nat) (k : SK) : (u ≠ Option.none → k = .list) →
      Puts l name (wrap u (.seq k [])) [(name, .dset .null { type := some (own u k.cls), base := some k.base })]
  /-- of any objects: a group with a member `data_0`, `data_1`, ... for each -/
  | items (name : PyStr) (u : Option Nat) (k : SK) (items : List Val) (mss : List Members) : mss.length = items.length → (u ≠ Option.none → k ≠ .tuple) →
      (∀ (i : Nat) (x : Val) (m : Members), items[i]? = some x → mss[i]? = some m → Puts l (V3.dataName i) x m) →
      Puts l name (wrap u (.seq k items)) [(name, .group { type := some (own u k.cls), base := some k.base } mss.flatten)]
  /-- a dictionary: a group with a group for each entry, named like the key, which has the value as `data` -/
  | dict (name : PyStr) (u : Option Nat) (es : List (V3.PV × Val)) (mss : List Members) (ms : Members) : mss.length = es.length → ms.length = es.length →
      (∀ (i : Nat) (e : V3.PV × Val) (m : Members) (n : PyStr × Node), es[i]? = some e → mss[i]? = some m → ms[i]? = some n →
        V3.reprPV l.v3 e.1 = .ok n.1 ∧ ∃ b, keyBase e.1 = some b ∧ n.2 = .group { base := some "dict_item", keyBase := some b, keyIdx := some i } m) →
      (∀ (i : Nat) (e : V3.PV × Val) (m : Members), es[i]? = some e → mss[i]? = some m → Puts l (ps "data") e.2 m) →
      Puts l name (wrap u (.dict es)) [(name, .group { type := some (own u .dict), base := some "dict" } ms)]
  /-- an array of a single object -/
  | objarr (name : PyStr) (v : Val) (ms : Members) : Puts l (ps "data") v ms →
      Puts l name (.oarr [] [v]) [(name, .group { type := some .lambda, base := some "ndarray", npDtype := some .o } ms)]

/-- `w` is the value `v`.  The items of a list, tuple or set of numbers of one type come back as numpy scalars of the same value, those of
byte strings as `numpy.bytes_`. -/
inductive Same : Val → Val → Prop
  | refl (v : Val) : Same v v
  | nums (k : SK) {items : List Val} {vs : List NpVal} : items.mapM Val.num? = some vs → Same (.seq k items) (.seq k (vs.map .np))
  | bytess (k : SK) (bs : List Bytes) : Same (.seq k (bs.map .bytes)) (.seq k (bs.map .npBytes))
  /-- item by item -/
  | seq (k : SK) {items items' : List Val} : items'.length = items.length →
      (∀ (i : Nat) (x y : Val), items[i]? = some x → items'[i]? = some y → Same x y) → Same (.seq k items) (.seq k items')
  /-- the same elements, in some order -/
  | set {items items1 items' : List Val} : items1.Perm items → Same (.seq .set items1) (.seq .set items') → Same (.seq .set items) (.seq .set items')
  /-- the same keys with the same values in the same order -/
  | dict {es es' : List (V3.PV × Val)} : es'.length = es.length →
      (∀ (i : Nat) (a b : V3.PV × Val), es[i]? = some a → es'[i]? = some b → b.1 = a.1) →
      (∀ (i : Nat) (a b : V3.PV × Val), es[i]? = some a → es'[i]? = some b → Same a.2 b.2) → Same (.dict es) (.dict es')
  | oarr (shape : List Nat) {items items' : List Val} : items'.length = items.length →
      (∀ (i : Nat) (x y : Val), items[i]? = some x → items'[i]? = some y → Same x y) → Same (.oarr shape items) (.oarr shape items')
  | inst (k : Nat) {v w : Val} : Same v w → Same (.inst k v) (.inst k w)

/-- h5py lists the members of a group: each one, once -/
def Lists (l : Libs) : Prop := ∀ ms : Members, (l.order ms).Perm ms

/-- ... and by name, as HDF5 does unless it is asked to keep track of the order of creation -/
def ByName (l : Libs) : Prop := ∀ ms : Members, (l.order ms).Pairwise fun a b => V3.textLe a.1 b.1 = true

/-- a class of the program called with the content of one of its objects gives that object -/
def CtorOk (l : Libs) : Prop := ∀ k v, l.ctor k v = .ok (.inst k v)

def Val.isMasked : Val → Bool
  | .masked .. => true
  | _ => false

/-- the elements of a set: hashable, different from each other -/
def Elements (oeq : Nat → Nat → Bool) (items : List Val) : Prop :=
  (∀ v ∈ items, v.view.isSome = true) ∧ items.Pairwise fun v w => v.same oeq w = false ∧ w.same oeq v = false

/-- keys that come back: `repr` writes no slash and no backslash -/
inductive Key (l : Libs) : V3.PV → Prop
  | str (s : PyStr) : 92 ∉ reprStr l.v3.printable s → 47 ∉ s → Key l (.str s)
  | int (i : Int) : Key l (.int i)
  | float (x : F64) : Key l (.float x)
  | cplx (x y : F64) : Key l (.cplx x y)
  /-- `False` comes back as `True` -/
  | true : Key l (.bool true)
  | tuple (items : List V3.PV) : (∀ x ∈ items, V3.Literal l.v3 x) → (∀ t, V3.reprPV l.v3 (.seq .tuple items) = .ok t → 92 ∉ t) → Key l (.seq .tuple items)

/-- objects that come back; `None` does not -/
inductive Clean (l : Libs) : Val → Prop
  | bool (b : Bool) : Clean l (.bool b)
  | int (i : Int) : Clean l (.int i)
  | float (x : F64) : Clean l (.float x)
  | cplx (x y : F64) : Clean l (.cplx x y)
  | str (s : PyStr) : Clean l (.str s)
  | bytes (b : Bytes) : Clean l (.bytes b)
  | np (x : NpVal) : Clean l (.np x)
  | arr (a : Nd) : Clean l (.arr a)
  | matrix (a : Nd) : Clean l (.matrix a)
  /-- of single characters one only -/
  | sarr (w : Nat) (shape : List Nat) (data : List PyStr) : 1 < w ∨ shape = [] → Clean l (.sarr w shape data)
  | barr (w : Nat) (shape : List Nat) (data : List Bytes) : Clean l (.barr w shape data)
  | masked (a : Nd) (mask : List Bool) : Clean l (.masked a mask)
  | sparse (k : SpK) (d ix ip : Nd) (shape : List Nat) : Clean l (.sparse k d ix ip shape)
  | opaque (c st : Nat) : Clean l (.opaque c st)
  /-- among single characters no empty string -/
  | seq (k : SK) (items : List Val) : (∀ x ∈ items, Clean l x) → (k = .set → Elements l.env.opaqueEq items) →
      (∀ ss : List PyStr, items = ss.map .str → widest ss = 1 → [] ∉ ss) → Clean l (.seq k items)
  | dict (es : List (V3.PV × Val)) : (∀ e ∈ es, Key l e.1) → V3.Differ l.env.opaqueEq (es.map Prod.fst) → (∀ e ∈ es, Clean l e.2) →
      ((∃ e ∈ es, e.2.isMasked = true) → ByName l) → Clean l (.dict es)
  | oarr (v : Val) : v.isSeq = false → Clean l v → Clean l (.oarr [] [v])
  | inst (k : Nat) (v : Val) : (l.env.u k).importable = true → Clean l v → Clean l (.inst k v)

end Verif.V4
