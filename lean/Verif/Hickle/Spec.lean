import Verif.Hickle.Dump
import Verif.Hickle.RegSpec
/-!
# Specification of the round trip

This file does not mention dump or load.  It says
* which object graphs are considered (`GoodHeap`, `Ranked`), and
* what it means that an object graph `L` is a faithful copy of an object graph `H` (`Copy`).
-/
namespace Verif

/-- element-wise related lists -/
inductive All2 {α β : Type} (r : α → β → Prop) : List α → List β → Prop
  | nil : All2 r [] []
  | cons {x y xs ys} : r x y → All2 r xs ys → All2 r (x :: xs) (y :: ys)

/-! ## copies -/

/-- values without references to other objects -/
def Val.isAtom : Val → Bool
  | .seq _ | .set _ | .dict _ | .oarr .. | .sparse .. | .recGroup .. => false
  | _ => true

/-- objects whose identity matters: everything but None, booleans and numbers -/
def Val.hasIdentity : Val → Bool
  | .none | .bool _ | .int _ | .float _ | .cplx .. | .np _ => false
  | _ => true

/-- the number has the same mathematical value in the numpy type `d`: it is not an int that a float can not
represent (`F64.fits_small`: all up to 2^53 can), or `d` is not the type of floats or complex numbers -/
def NpVal.Fits (d : DT) (v : NpVal) : Prop := ∀ x, v = .i x → d = .float64 ∨ d = .complex128 → F64.Fits x

/-- `o'` is the Python or numpy number `o` converted to the numpy type `d` (the very same datum if `d` is
the type of `o`: `castNum_same`), with the same mathematical value if that is possible -/
def SameNum (d : DT) (o o' : Obj) : Prop :=
  ∃ v w, exactNum o = some v ∧ o' = ⟨w.cls, .np w⟩ ∧ castNum d v = some w ∧ (v.Fits d → w.val = v.val)

/-- the numpy type of a number of a built-in or numpy class -/
def numDt (H : Heap) (c : Addr) : Option DT := (H[c]?.bind exactNum).map NpVal.dt

/-- Items of a sequence or set.  If all of them are numbers they become numpy scalars of one type,
the type of one of them; otherwise they are copied. -/
def ItemsCopy (H : Heap) (R : Addr → Addr → Prop) (N : DT → Addr → Addr → Prop) (xs as : List Addr) : Prop :=
  (All2 R xs as ∧ (as = [] ∨ ∃ c ∈ as, numDt H c = none)) ∨
  (∃ d, (∃ c ∈ as, numDt H c = some d) ∧ All2 (N d) xs as)

/-- None, booleans and Python numbers -/
def Obj.plainKey : Obj → Bool
  | ⟨.noneType, .none⟩ | ⟨.bool, .bool _⟩ | ⟨.int, .int _⟩ | ⟨.float, .float _⟩ | ⟨.complex, .cplx ..⟩ => true
  | _ => false

/-- dict keys that are rebuilt from their text: strings without slashes, bytes without slashes that are UTF-8, None, booleans and
Python numbers -/
def Obj.nameKey : Obj → Bool
  | ⟨.str, .str s⟩ => !strSlash s
  | ⟨.bytes, .bytes b⟩ => !byteSlash b && (utf8Decode b).isSome
  | o => o.plainKey

/-- An entry of a dict: the key is rebuilt from its text and the value is copied, or key and value
are treated like the items of a tuple. -/
def EntryCopy (H : Heap) (R : Addr → Addr → Prop) (N : DT → Addr → Addr → Prop) (Q : Addr → Addr → Prop) (e' e : Addr × Addr) : Prop :=
  (Q e'.1 e.1 ∧ R e'.2 e.2) ∨
  ((∃ o, H[e.1]? = some o ∧ o.plainKey = false) ∧ ItemsCopy H R N [e'.1, e'.2] [e.1, e.2])

/-- `v'` is a copy of `v`: equal, or containers with copies of the same items in the same order
(any order for sets), arrays of copies of the same objects in the same shape, sparse matrices of the same
shape made of copies of the same arrays -/
inductive ValCopy (H : Heap) (R : Addr → Addr → Prop) (N : DT → Addr → Addr → Prop) (Q : Addr → Addr → Prop) : Val → Val → Prop
  | atom {v} : v.isAtom = true → ValCopy H R N Q v v
  | seq {xs as} : ItemsCopy H R N xs as → ValCopy H R N Q (.seq xs) (.seq as)
  | set {xs as bs} : ItemsCopy H R N xs bs → bs.Perm as → ValCopy H R N Q (.set xs) (.set as)
  | dict {es' es} : All2 (EntryCopy H R N Q) es' es → ValCopy H R N Q (.dict es') (.dict es)
  | oarr {sh xs as} : All2 R xs as → ValCopy H R N Q (.oarr sh xs) (.oarr sh as)
  | sparse {d' i' p' d i p sh} : R d' d → R i' i → R p' p → ValCopy H R N Q (.sparse d' i' p' sh) (.sparse d i p sh)

/-- Object `b` of `L` is a faithful copy of object `a` of `H`.
`R x c`: object `x` is the copy of object `c`.  `N d x c`: the number `c` became the numpy scalar
`x` of type `d`.  `Q x c`: the dict key `c` was rebuilt as `x`. -/
def CopyBy (H L : Heap) (R : Addr → Addr → Prop) (N : DT → Addr → Addr → Prop) (Q : Addr → Addr → Prop) (b a : Addr) : Prop :=
  R b a ∧
  -- same class and value
  (∀ x c, R x c → ∃ o o', H[c]? = some o ∧ L[x]? = some o' ∧ o'.cls = o.cls ∧ ValCopy H R N Q o'.val o.val) ∧
  (∀ d x c, N d x c → ∃ o o', H[c]? = some o ∧ L[x]? = some o' ∧ SameNum d o o') ∧
  (∀ x c, Q x c → ∃ o, H[c]? = some o ∧ L[x]? = some o ∧ o.nameKey = true) ∧
  -- distinct objects never become one
  (∀ x c c', (R x c ∨ (∃ d, N d x c) ∨ Q x c) → (R x c' ∨ (∃ d, N d x c') ∨ Q x c') → c = c') ∧
  -- one object stays one object
  (∀ x y c o, R x c → R y c → H[c]? = some o → o.val.hasIdentity = true → x = y)

def Copy (H L : Heap) (b a : Addr) : Prop := ∃ R N Q, CopyBy H L R N Q b a

/-! ## object graphs considered -/

/-- addresses an object refers to -/
def Val.children : Val → List Addr
  | .seq items => items
  | .set items => items
  | .dict es => es.flatMap fun e => [e.1, e.2]
  | .oarr _ items => items
  | .sparse d i p _ => [d, i, p]
  | .recGroup ms _ => ms.map fun m => m.2.1
  | _ => []

/-- an element of an array of strings of width `w`, as numpy gives it: not longer, and without trailing NULs -/
def widthOk (w : Nat) (s : PyStr) : Bool := decide (s.length ≤ w) && decide (s.getLast? ≠ some 0)

/-- an array of strings: none of its dimensions is empty, and the elements are as numpy keeps them -/
def sarrOk (w : Nat) (sh : List Nat) (ss : List PyStr) : Bool :=
  w ≠ 0 && sh.all (· ≠ 0) && ss.length = shSize sh && ss.all (widthOk w)

/-- Objects of built-in, numpy and scipy classes carry the value their class says.  Arrays of strings or
objects with an empty dimension are not covered, see `Verif/Props/C33.lean`. -/
def NativeOk : Obj → Bool
  | ⟨.noneType, .none⟩ | ⟨.bool, .bool _⟩ | ⟨.int, .int _⟩ | ⟨.float, .float _⟩ | ⟨.complex, .cplx ..⟩
  | ⟨.str, .str _⟩ | ⟨.bytes, .bytes _⟩ | ⟨.list, .seq _⟩ | ⟨.tuple, .seq _⟩ | ⟨.set, .set _⟩ | ⟨.dict, .dict _⟩
  | ⟨.npBool, .np (.b _)⟩ | ⟨.npFloat64, .np (.f _)⟩ | ⟨.npComplex128, .np (.c ..)⟩ | ⟨.ndarray, .arr ..⟩
  | ⟨.object, .opaque ..⟩ => true
  | ⟨.npInt64, .np (.i x)⟩ => (NpVal.i x).ok
  | ⟨.matrix, .arr _ sh _⟩ => sh.length = 2
  | ⟨.masked, .masked ..⟩ => true
  | ⟨.csr, .sparse _ _ _ sh⟩ | ⟨.csc, .sparse _ _ _ sh⟩ | ⟨.bsr, .sparse _ _ _ sh⟩ => sh.length = 2
  | ⟨.ndarray, .sarr w sh ss⟩ => sarrOk w sh ss
  | ⟨.ndarray, .oarr sh items⟩ => sh.all (· ≠ 0) && items.length = shSize sh
  | _ => false

/-- Instances of other classes: the class can be imported when loading and, if it is derived from
a built-in class, calling it with what the built-in class accepts gives back an instance with that
value (true when the subclass inherits the constructor).  Subclasses of `str` are not covered, see
`Verif/Props/C12.lean`. -/
def UserOk (env : Env) (k : Nat) (v : Val) : Prop :=
  let u := env.u k
  let base := (expected env (.user k)).2.base
  u.importable = true ∧
  match v with
  | .opaque .. => (expected env (.user k)).1 = .object
  | .seq _ => (base = "list" ∨ base = "tuple") ∧ u.ctor .empty = .ok (.seq []) ∧ ∀ l, u.ctor (.items l) = .ok (.seq l)
  | .set _ => base = "set" ∧ ∀ l, u.ctor (.items l) = .ok (.set l)
  | .dict _ => base = "dict" ∧ ∀ l, u.ctor (.pairs l) = .ok (.dict l)
  | .int i => base = "int" ∧ u.ctor (.np (.i i)) = .ok (.int i) ∧ u.ctor (.text (asciiBytes (showInt i))) = .ok (.int i)
  | .float x => base = "float" ∧ u.ctor (.np (.f x)) = .ok (.float x)
  | .cplx x y => base = "complex" ∧ u.ctor (.np (.c x y)) = .ok (.cplx x y)
  | .bytes b => base = "bytes" ∧ u.name ≠ "str" ∧ u.ctor (.chars b) = .ok (.bytes b)
  | _ => False

def ObjOk (env : Env) (o : Obj) : Prop :=
  match o.cls with
  | .user k => UserOk env k o.val
  | _ => NativeOk o = true

/-- if all items are numbers, ints next to floats or complex numbers convert to a float exactly
(`F64.fits_small`: all up to 2^53 do) -/
def NumsOk (H : Heap) (items : List Addr) : Prop :=
  (∀ a ∈ items, numDt H a ≠ none) → ∀ a ∈ items, ∀ b ∈ items, ∀ o p x v, H[a]? = some o → H[b]? = some p → exactNum o = some (.i x) → exactNum p = some v →
    (v.dt = .float64 ∨ v.dt = .complex128) → F64.Fits x

/-- an object that is part of object `a`: `a` itself, or an item, element, key or value of a part -/
inductive Reach (H : Heap) (a : Addr) : Addr → Prop
  | here : Reach H a a
  | into {c d o} : Reach H a c → H[c]? = some o → d ∈ o.val.children → Reach H a d

/-- in all sequences that are part of object `a`, ints next to floats convert exactly -/
def NumsIn (H : Heap) (a : Addr) : Prop :=
  ∀ (y : Addr) (o : Obj) items, Reach H a y → H[y]? = some o → o.val = .seq items → NumsOk H items

/-- A key that is a numpy int and is stored next to a float (`keySlot`): it converts to a float exactly.  The
int of a Python int key is stored as text. -/
def KeyNumOk (H : Heap) (k v : Addr) : Prop :=
  ∀ o p x w, H[k]? = some o → H[v]? = some p → o.plainKey = false → exactNum o = some (.i x) → exactNum p = some w →
    (w.dt = .float64 ∨ w.dt = .complex128) → F64.Fits x

/-- Dict keys: not `False`; not an instance of a subclass of `str` or `bytes`; classes of the
program are not named like a built-in key class; `repr` of a float or complex key reads back and
has no slash. -/
def KeyOk (env : Env) (o : Obj) : Prop :=
  o.val ≠ .bool false ∧
  (∀ s, o.val = .str s → o.cls = .str) ∧ (∀ b, o.val = .bytes b → o.cls = .bytes) ∧
  (∀ k, o.cls = .user k → dictKeyTypes.contains (env.u k).name = false) ∧
  (∀ x, o.val = .float x → env.parseF (env.reprF x) = some x ∧ strSlash (env.reprF x) = false) ∧
  (∀ x y, o.val = .cplx x y → env.parseC (env.reprC x y) = some (x, y) ∧ strSlash (env.reprC x y) = false)

/-- hashable and pairwise different, as the keys of a dict and the elements of a set are -/
def Distinct (env : Env) (H : Heap) (as : List Addr) : Prop :=
  (∀ a ∈ as, (view env.u H a).isSome) ∧
  as.Pairwise fun a b => ∀ v w, view env.u H a = some v → view env.u H b = some w →
    KV.eqv env.opaqueEq v w = false ∧ KV.eqv env.opaqueEq w v = false

/-- numpy takes an object with this value as a single element of an array of objects -/
def Val.noDims : Val → Bool
  | .seq _ | .arr .. | .sarr .. | .oarr .. | .masked .. | .sparse .. | .recData .. => false
  | _ => true

/-- every innermost row of an array of objects has an element that is not a number -/
def RowsMixed (H : Heap) (sh : List Nat) (items : List Addr) : Prop :=
  ∀ n, sh.getLast? = some n → ∀ i, i * n < items.length → ∃ a ∈ (items.drop (i * n)).take n, numDt H a = none

/-- Arrays of objects: the elements are not sequences or arrays, and every row has an element that is not a
number.  `Verif/Props/C33.lean` shows what happens to others. -/
def ObjArrOk (H : Heap) (sh : List Nat) (items : List Addr) : Prop :=
  (∀ a ∈ items, ∃ o, H[a]? = some o ∧ o.val.noDims = true) ∧ RowsMixed H sh items

/-- The object graphs the round trip is claimed for.  What is said of numbers is needed only where two different
numbers must not become equal: for what is hashed, elements of sets and keys of dicts. -/
structure GoodHeap (P : Nat → Prop) (env : Env) (H : Heap) : Prop where
  cls : ∀ (a : Addr) (o : Obj), H[a]? = some o → GoodCls P env o.cls ∧ ObjOk env o
  wf : ∀ (a : Addr) (o : Obj), H[a]? = some o → ∀ b ∈ o.val.children, b < H.length
  nums : ∀ (a : Addr) (o : Obj) items, H[a]? = some o → o.val = .set items → NumsOk H items ∧ ∀ x ∈ items, NumsIn H x
  knums : ∀ (a : Addr) (o : Obj) es, H[a]? = some o → o.val = .dict es → ∀ k v, (k, v) ∈ es → KeyNumOk H k v ∧ NumsIn H k
  sets : ∀ (a : Addr) (o : Obj) items, H[a]? = some o → o.val = .set items → Distinct env H items
  keys : ∀ (a : Addr) (o : Obj) es, H[a]? = some o → o.val = .dict es → Distinct env H (es.map Prod.fst) ∧
    ∀ k v, (k, v) ∈ es → ∀ q, H[k]? = some q → KeyOk env q
  /-- the parts of a sparse matrix are numeric arrays -/
  sparse : ∀ (a : Addr) (o : Obj) d i p sh, H[a]? = some o → o.val = .sparse d i p sh →
    ∀ x ∈ [d, i, p], ∃ t shape l, H[x]? = some ⟨.ndarray, .arr t shape l⟩
  oarrs : ∀ (a : Addr) (o : Obj) sh items, H[a]? = some o → o.val = .oarr sh items → ObjArrOk H sh items
  /-- CPython has only one empty tuple -/
  unit : ∀ (a b : Addr), H[a]? = some ⟨.tuple, .seq []⟩ → H[b]? = some ⟨.tuple, .seq []⟩ → a = b

/-! ## classes that are missing when the file is loaded -/

/-- the class of the object can not be imported by the program that loads the file -/
def Obj.lost (env : Env) (o : Obj) : Bool :=
  match o.cls with
  | .user k => !(env.u k).importable
  | _ => false

/-- the object and all parts of it are of classes that can be imported -/
def Live (env : Env) (H : Heap) (a : Addr) : Prop := ∀ y o, Reach H a y → H[y]? = some o → o.lost env = false

/-- Instances of classes that are missing.  They are derived from a built-in class or `numpy.ndarray`, or
have no loader; nothing is assumed of their constructors.  Empty lists and tuples of such a class are
excluded, see `Verif/Props/C28.lean`. -/
def LostOk (env : Env) (o : Obj) : Prop :=
  match o.val with
  | .opaque .. => (expected env o.cls).1 = .object
  | .seq items => items ≠ [] ∧ (expected env o.cls).2.fn = .listlike
  | .set _ => (expected env o.cls).2.fn = .setlike
  | .dict _ => (expected env o.cls).2.fn = .dictlike
  | .int _ | .float _ | .cplx .. => (expected env o.cls).2.fn = .scalar
  | .str _ | .bytes _ => (expected env o.cls).2.fn = .listlike
  | .arr .. => (expected env o.cls).2.fn = .npArray
  | _ => False

/-- Object graphs with instances of missing classes.  What has to be hashable when it is loaded, and
what is part of an array of objects, is of classes that can be imported: `Verif/Props/C28.lean` shows
what happens to others. -/
structure GoodGraph (P : Nat → Prop) (env : Env) (H : Heap) : Prop where
  cls : ∀ (a : Addr) (o : Obj), H[a]? = some o → GoodCls P env o.cls
  ok : ∀ (a : Addr) (o : Obj), H[a]? = some o → o.lost env = false → ObjOk env o
  lost : ∀ (a : Addr) (o : Obj), H[a]? = some o → o.lost env = true → LostOk env o
  wf : ∀ (a : Addr) (o : Obj), H[a]? = some o → ∀ b ∈ o.val.children, b < H.length
  nums : ∀ (a : Addr) (o : Obj) items, H[a]? = some o → o.val = .set items → o.lost env = false →
    NumsOk H items ∧ ∀ x ∈ items, NumsIn H x
  knums : ∀ (a : Addr) (o : Obj) es, H[a]? = some o → o.val = .dict es → o.lost env = false →
    ∀ k v, (k, v) ∈ es → KeyNumOk H k v ∧ NumsIn H k
  sets : ∀ (a : Addr) (o : Obj) items, H[a]? = some o → o.val = .set items → o.lost env = false →
    Distinct env H items ∧ ∀ x ∈ items, Live env H x
  keys : ∀ (a : Addr) (o : Obj) es, H[a]? = some o → o.val = .dict es → o.lost env = false →
    Distinct env H (es.map Prod.fst) ∧ ∀ k v, (k, v) ∈ es → Live env H k ∧ ∀ q, H[k]? = some q → KeyOk env q
  sparse : ∀ (a : Addr) (o : Obj) d i p sh, H[a]? = some o → o.val = .sparse d i p sh →
    ∀ x ∈ [d, i, p], ∃ t shape l, H[x]? = some ⟨.ndarray, .arr t shape l⟩
  oarrs : ∀ (a : Addr) (o : Obj) sh items, H[a]? = some o → o.val = .oarr sh items →
    ObjArrOk H sh items ∧ ∀ x ∈ items, ∀ q : Obj, H[x]? = some q → q.lost env = false
  unit : ∀ (a b : Addr), H[a]? = some ⟨.tuple, .seq []⟩ → H[b]? = some ⟨.tuple, .seq []⟩ → a = b

theorem ObjOk.live {env : Env} {o : Obj} (h : ObjOk env o) : o.lost env = false := by
  obtain ⟨cl, v⟩ := o
  cases cl <;> first | rfl | (simp only [Obj.lost]; rw [show (env.u _).importable = true from h.1]; rfl)

/-- without missing classes nothing more is assumed than `GoodHeap` does -/
theorem GoodHeap.toGraph {P : Nat → Prop} {env : Env} {H : Heap} (h : GoodHeap P env H) : GoodGraph P env H where
  cls a o ho := (h.cls a o ho).1
  ok a o ho _ := (h.cls a o ho).2
  lost a o ho hl := by rw [(h.cls a o ho).2.live] at hl; simp at hl
  wf := h.wf
  nums a o items ho hv _ := h.nums a o items ho hv
  knums a o es ho hv _ := h.knums a o es ho hv
  sets a o items ho hv _ := ⟨h.sets a o items ho hv, fun _ _ y q _ hq => (h.cls y q hq).2.live⟩
  keys a o es ho hv _ := ⟨(h.keys a o es ho hv).1, fun k v hk => ⟨fun y q _ hq => (h.cls y q hq).2.live, (h.keys a o es ho hv).2 k v hk⟩⟩
  sparse := h.sparse
  oarrs a o sh items ho hv := ⟨h.oarrs a o sh items ho hv, fun x _ q hq => (h.cls x q hq).2.live⟩
  unit := h.unit

/-! ## what is recovered

An instance of a missing class is replaced by a `RecoveredDataset` (`recData`: an array with attributes)
or a `RecoveredGroup` (`recGroup`: a dict from names to members, with attributes). -/

/-- The data of an instance of a missing class that is not pickled and not a container of objects, and
the attributes that go with them: numbers (integers of more than 63 bits as decimal text), UTF-8
text, bytes, numbers of sequences and sets in one array of the type of one of them, arrays. -/
inductive RecData (env : Env) (H : Heap) (o : Obj) : Data → Attrs → Prop
  | int {i} : o.val = .int i → bitLength i ≤ 63 → RecData env H o (.scalar (.i i)) []
  | intBig {i} : o.val = .int i → 63 < bitLength i → RecData env H o (.raw (asciiBytes (showInt i))) []
  | float {x} : o.val = .float x → RecData env H o (.scalar (.f x)) []
  | cplx {x y} : o.val = .cplx x y → RecData env H o (.scalar (.c x y)) []
  | str {s b} : o.val = .str s → utf8Encode s = some b → RecData env H o (.chars b) [("str_type", .bytes (o.cls.name env.u))]
  | bytes {b} : o.val = .bytes b → RecData env H o (.chars b) [("str_type", .bytes (o.cls.name env.u))]
  | setNil : o.val = .set [] → RecData env H o (.vec .int64 []) []
  | nums {items d vs} : o.val = .seq items ∨ o.val = .set items → (∃ c ∈ items, numDt H c = some d) →
      All2 (fun w a => ∃ p v, H[a]? = some p ∧ exactNum p = some v ∧ castNum d v = some w) vs items → RecData env H o (.vec d vs) []
  | arr {d shape data} : o.val = .arr d shape data → RecData env H o (.array d shape data) [("np_dtype", .dt d)]

/-- the attributes of a member: they are kept unless the member is recovered itself -/
def MemberAttrs (env : Env) (H : Heap) (a : Addr) (kept : Option Attrs) (attrs : Attrs) : Prop :=
  ∃ q, H[a]? = some q ∧
    ((q.lost env = true ∧ kept = none) ∨ (q.lost env = false ∧ ∃ at1, kept = some at1 ∧ ∀ p ∈ attrs, Assoc.get? at1 p.1 = some p.2))

/-- member for the item at index `i` -/
def RecItem (env : Env) (H : Heap) (R : Addr → Addr → Prop) (m : PyStr × Addr × Option Attrs) (e : Addr × Nat) : Prop :=
  m.1 = dataName e.2 ∧ R m.2.1 e.1 ∧ MemberAttrs env H e.1 m.2.2 [("item_index", .int e.2)]

/-- Member for the dict entry at index `i`.  A key that is stored as text is the name of the member; the
member is a copy of the value and the class of the key is an attribute.  Otherwise the member is a tuple of
key and value. -/
def RecEntry (env : Env) (H L : Heap) (R : Addr → Addr → Prop) (N : DT → Addr → Addr → Prop) (m : PyStr × Addr × Option Attrs)
    (e : (Addr × Addr) × Nat) : Prop :=
  ∃ k, H[e.1.1]? = some k ∧
    ((∃ kbt, keySlot env k = .ok (some (m.1, kbt)) ∧ R m.2.1 e.1.2 ∧
        MemberAttrs env H e.1.2 m.2.2 [("key_idx", .int e.2), ("key_base_type", .bytes kbt)]) ∨
     (keySlot env k = .ok none ∧ m.1 = dataName e.2 ∧
        (∃ k' v', L[m.2.1]? = some ⟨.tuple, .seq [k', v']⟩ ∧ ItemsCopy H R N [k', v'] [e.1.1, e.1.2]) ∧
        ∃ at1, m.2.2 = some at1 ∧ Assoc.get? at1 "key_idx" = some (.int e.2) ∧ Assoc.get? at1 "key_base_type" = some (.bytes "key_value")))

/-- the members of a recovered group: one for every item of the sequence or set, or entry of the dict -/
inductive RecMembers (env : Env) (H L : Heap) (R : Addr → Addr → Prop) (N : DT → Addr → Addr → Prop) (o : Obj)
    (ms : List (PyStr × Addr × Option Attrs)) : Prop
  | items {items ms'} : o.val = .seq items ∨ o.val = .set items → ms'.Perm ms → All2 (RecItem env H R) ms' items.zipIdx →
      RecMembers env H L R N o ms
  | dict {es ms'} : o.val = .dict es → ms'.Perm ms → All2 (RecEntry env H L R N) ms' es.zipIdx → RecMembers env H L R N o ms

/-- the attributes of a recovered object: the name of the loader of its class, no class, and `attrs` -/
structure RecoveredAttrs (env : Env) (o : Obj) (at1 attrs : Attrs) : Prop where
  base : Assoc.get? at1 "base_type" = some (.bytes (expected env o.cls).2.base)
  type : Assoc.get? at1 "type" = none
  rest : ∀ p ∈ attrs, Assoc.get? at1 p.1 = some p.2

/-- `o'` is what the instance `o` of a missing class is recovered to -/
inductive Recovered (env : Env) (H L : Heap) (R : Addr → Addr → Prop) (N : DT → Addr → Addr → Prop) (o' o : Obj) : Prop
  | pickled {st at1} : o.val = .opaque st true → o' = ⟨.recData, .recData (.pickleObj o.cls st) at1⟩ → Recovered env H L R N o' o
  | data {d at1 attrs} : RecData env H o d attrs → RecoveredAttrs env o at1 attrs → o' = ⟨.recData, .recData d at1⟩ →
      Recovered env H L R N o' o
  | group {ms at1} : RecMembers env H L R N o ms → RecoveredAttrs env o at1 [] → o' = ⟨.recGroup, .recGroup ms at1⟩ →
      Recovered env H L R N o' o

/-- Like `Copy`, but instances of missing classes are recovered. -/
def RecoveredCopy (env : Env) (H L : Heap) (b a : Addr) : Prop :=
  ∃ (R : Addr → Addr → Prop) (N : DT → Addr → Addr → Prop) (Q : Addr → Addr → Prop), R b a ∧
  (∀ x c, R x c → ∃ o o', H[c]? = some o ∧ L[x]? = some o' ∧
    ((o.lost env = false ∧ o'.cls = o.cls ∧ ValCopy H R N Q o'.val o.val) ∨ (o.lost env = true ∧ Recovered env H L R N o' o))) ∧
  (∀ d x c, N d x c → ∃ o o', H[c]? = some o ∧ L[x]? = some o' ∧ SameNum d o o') ∧
  (∀ x c, Q x c → ∃ o, H[c]? = some o ∧ L[x]? = some o ∧ o.nameKey = true) ∧
  (∀ x c c', (R x c ∨ (∃ d, N d x c) ∨ Q x c) → (R x c' ∨ (∃ d, N d x c') ∨ Q x c') → c = c') ∧
  (∀ x y c o, R x c → R y c → H[c]? = some o → o.val.hasIdentity = true → x = y)

/-- acyclic: every object ranks above the objects it refers to -/
def Ranked (H : Heap) (rk : Addr → Nat) : Prop :=
  ∀ (a : Addr) (o : Obj), H[a]? = some o → ∀ b ∈ o.val.children, rk b < rk a

end Verif
