import Verif.Hickle.Spec
/-!
# What `dump` is expected to accept

A specification, independent of `dump`: which object graphs hickle says it can store.  Everything
excluded here is refused by the program for a reason named beside the condition.
-/
namespace Verif

/-- keyword arguments that h5py accepts for every dataset with a size -/
def KwOk (kw : List Kw) : Prop := (∀ k ∈ kw, k.isSafe = true) ∧ (.compressionOpts ∈ kw → .compression ∈ kw)

/-- a Python or numpy number -/
def IsNum (H : Heap) (a : Addr) : Prop := ∃ o v, H[a]? = some o ∧ exactNum o = some v

/-- a `bytes` object of at most one byte (lists of these are not modelled) -/
def Obj.ShortBytes (o : Obj) : Prop := o.cls = .bytes ∧ ∃ b, o.val = .bytes b ∧ b.length ≤ 1

/-- nested sequences that numpy takes for an array of different lengths, and refuses -/
def Ragged (env : Env) (H : Heap) (a : Addr) : Prop :=
  env.raggedRaises = true ∧ (∃ cl items, H[a]? = some ⟨cl, .seq items⟩) ∧ npShape H (env.maxDims + 1) a = none

/-- The items of a list, tuple or set.  hickle looks for a common number type: starting from a number,
numpy must know the shape of all items; when all are numbers, each must fit into the common type. -/
structure ItemsOk (env : Env) (H : Heap) (items : List Addr) : Prop where
  first : ∀ (a : Addr) (o : Obj), items.head? = some a → H[a]? = some o → ¬ o.ShortBytes
  rest : ∀ a : Addr, items.head? = some a → IsNum H a → ∀ b ∈ items, ¬ Ragged env H b ∧ ∀ o : Obj, H[b]? = some o → ¬ o.ShortBytes
  fit : (∀ a ∈ items, IsNum H a) → ∀ a ∈ items, ∀ (o : Obj) (x : Int), H[a]? = some o → exactNum o = some (.i x) →
    (NpVal.i x).ok = true ∨ ((F64.ofInt x).isSome = true ∧ ∃ b ∈ items, ∃ (p : Obj) (v : NpVal), H[b]? = some p ∧ exactNum p = some v ∧
      (v.dt = .float64 ∨ v.dt = .complex128))

/-- a NaN, or a complex number with a NaN part -/
def IsNanAt (H : Heap) (a : Addr) : Prop :=
  ∃ o : Obj, H[a]? = some o ∧ (o.val = .float .nan ∨ ∃ x y, o.val = .cplx x y ∧ (x = .nan ∨ y = .nan))

/-- A dict key.  HDF5 names are C strings; Python limits the digits of a number as text; classes of the
program are not named like one of the built-in key classes. -/
structure KeyDump (env : Env) (q : Obj) : Prop where
  str : ∀ s, q.val = .str s → 0 ∉ s
  bytes : ∀ b, q.val = .bytes b → 0 ∉ b
  int : ∀ i, q.val = .int i → digitsOk env i = true
  cls : ∀ k, q.cls = .user k → dictKeyTypes.contains (env.u k).name = false

/-- The entries of a dict: keys are different (Python's own invariant), at most one is a NaN, and an entry
whose key cannot be a name is stored as the tuple of key and value. -/
structure DictOk (env : Env) (H : Heap) (es : List (Addr × Addr)) : Prop where
  distinct : Distinct env H (es.map Prod.fst)
  nan : es.Pairwise fun e f => ¬ (IsNanAt H e.1 ∧ IsNanAt H f.1)
  keys : ∀ k v, (k, v) ∈ es → ∀ q : Obj, H[k]? = some q → KeyDump env q ∧ (keySlot env q = .ok none → ItemsOk env H [k, v])

/-- an object carries the kind of value its class stands for -/
def KindOk (env : Env) (o : Obj) : Bool :=
  match (expected env o.cls).2.fn, o.val with
  | .scalar, .int _ | .scalar, .bool _ | .scalar, .float _ | .scalar, .cplx .. => true
  | .none, .none => true
  | .listlike, .str _ | .listlike, .bytes _ | .listlike, .seq _ => true
  | .setlike, .set _ | .dictlike, .dict _ | .npScalar, .np _ => true
  | .npArray, .arr .. | .npArray, .sarr .. | .npArray, .oarr .. | .npMasked, .masked .. | .sparse, .sparse .. => true
  | .pickled, .opaque _ picklable => picklable
  | _, _ => false

/-- an object that can be stored, but for the keys of a dict -/
structure ObjPlain (env : Env) (kw : List Kw) (H : Heap) (o : Obj) : Prop where
  kind : KindOk env o = true
  /-- classes are stored by `pickle` -/
  cls : (expected env o.cls).1 ≠ .object → clsPicklable env o.cls = true
  /-- no lone surrogates -/
  str : ∀ s, o.val = .str s → (utf8Encode s).isSome = true
  int : ∀ i, o.val = .int i → 63 < bitLength i → digitsOk env i = true
  /-- arrays without dimensions cannot be compressed, see C23 -/
  arr : ∀ d data, o.val = .arr d [] data → kw = []
  mask : ∀ d data m, o.val = .masked d [] data m → kw = []
  items : ∀ items, (o.val = .seq items ∨ o.val = .set items) → ItemsOk env H items
  /-- an array has as many elements as its shape says -/
  strs : ∀ w shape ss, o.val = .sarr w shape ss → ss.length = shSize shape ∧ ∀ s ∈ ss, (utf8Encode s).isSome = true
  /-- the innermost lists an array of objects is stored as are lists like others -/
  objs : ∀ shape items, o.val = .oarr shape items → items.length = shSize shape ∧
    ∀ n i, shape.getLast? = some n → ItemsOk env H ((items.drop (i * n)).take n)
  /-- matrices of scipy have two dimensions, numbered by 64 bit integers -/
  dims : ∀ d i p shape, o.val = .sparse d i p shape → shape.length = 2 ∧ ∀ n ∈ shape, n < 2 ^ 63

/-- an object that can be stored -/
structure ObjDump (env : Env) (kw : List Kw) (H : Heap) (o : Obj) : Prop extends ObjPlain env kw H o where
  dict : ∀ es, o.val = .dict es → DictOk env H es

/-- object graphs that can be stored -/
structure DumpDomain (env : Env) (kw : List Kw) (H : Heap) : Prop where
  wf : ∀ (a : Addr) (o : Obj), H[a]? = some o → ∀ b ∈ o.val.children, b < H.length
  obj : ∀ (a : Addr) (o : Obj), H[a]? = some o → ObjDump env kw H o

end Verif
