import Verif.Py.Err
import Verif.Py.F64
/-!
# Python classes and the object heap

An address is an index into the heap; objects carry their class and a value.
Object graphs may share objects and may be cyclic.
-/
namespace Verif

/-- address of an object (CPython: `id(obj)`) -/
notation "Addr" => Nat

/-- Python classes.  `user k` is any other class; what hickle can observe of it is in `Env`. -/
inductive Cls where
  | noneType | bool | int | float | complex | str | bytes | list | tuple | set | dict | object
  | npGeneric | npNumber | npBool | npInt64 | npFloat64 | npComplex128 | ndarray
  | matrix | masked  -- numpy.matrix, numpy.ma.core.MaskedArray
  | csr | csc | bsr  -- scipy.sparse.csr_matrix, csc_matrix, bsr_matrix
  | nodeRef   -- hickle/lookup.py NodeReference
  | recover   -- hickle/lookup.py AttemptRecoverCustom
  | recGroup | recData  -- hickle/lookup.py RecoveredGroup, RecoveredDataset
  | user (k : Nat)
  deriving DecidableEq, Repr, Inhabited

/-- class of a numpy scalar -/
def NpVal.cls : NpVal → Cls
  | .b _ => .npBool | .i _ => .npInt64 | .f _ => .npFloat64 | .c _ _ => .npComplex128

/-- HDF5 object id / object reference -/
notation "NodeId" => Nat

/-- attribute values -/
inductive AttrVal where
  | int (i : Int)
  | bool (b : Bool)
  | bytes (s : String)      -- a bytes/str attribute (ASCII)
  | ref (n : NodeId)        -- h5py.Reference
  | dt (d : DT)             -- dtype string such as b'<i8'
  | udt (w : Nat)           -- dtype string b'<U{w}'
  | odt                     -- dtype string b'|O'
  | pcls (c : Cls)          -- pickle string of a class (hickle 4.x files)
  deriving DecidableEq, Repr, Inhabited

/-- attributes of a node -/
abbrev Attrs := List (String × AttrVal)

/-- content of a dataset.  Pickle strings are kept symbolic. -/
inductive Data where
  | null (dtype : String)                           -- shape None
  | scalar (v : NpVal)                              -- shape ()
  | vec (d : DT) (data : List NpVal)                -- shape (n,)
  | array (d : DT) (shape : List Nat) (data : List NpVal)
  | chars (b : Bytes)                               -- dtype S1, shape (1,n)
  | raw (b : Bytes)                                 -- dtype uint8, shape (n,)
  | ref (n : NodeId)                                -- h5py.ref_dtype, shape ()
  | nullRef                                         -- the same, never written: refers to nothing
  | pickleObj (c : Cls) (st : Nat)                  -- pickle string of an opaque object
  | pickleCls (c : Cls)                             -- pickle string of a class
  deriving DecidableEq, Repr, Inhabited

/-- Value part of an object.  `seq` is the item list of a list or tuple (the class tells
which), `opaque st p` is an object without any loader: `st` stands for its whole state and
`p` tells whether pickle accepts it.
`arr`, `sarr`, `oarr` are numpy arrays of numbers, of strings (dtype `<U{width}`) and of objects, their
elements in C order.  `masked` is a masked array; its mask is absent (`np.ma.nomask`) or has one
boolean per element (the fill value and the hardness of the mask are not modelled).  `sparse` is a
compressed sparse matrix: its three arrays, which are objects of their own, and its shape (as a value:
scipy makes a tuple of Python ints of whatever it is given). -/
inductive Val where
  | none
  | bool (b : Bool)
  | int (i : Int)
  | float (x : F64)
  | cplx (re im : F64)
  | str (s : PyStr)
  | bytes (b : Bytes)
  | seq (items : List Addr)
  | set (items : List Addr)
  | dict (entries : List (Addr × Addr))
  | np (v : NpVal)
  | arr (dt : DT) (shape : List Nat) (data : List NpVal)
  | sarr (width : Nat) (shape : List Nat) (data : List PyStr)
  | oarr (shape : List Nat) (items : List Addr)
  | masked (dt : DT) (shape : List Nat) (data : List NpVal) (mask : Option (List Bool))
  | sparse (data indices indptr : Addr) (shape : List Nat)
  | opaque (st : Nat) (picklable : Bool)
  | recData (d : Data) (attrs : Attrs)                                 -- RecoveredDataset
  | recGroup (members : List (PyStr × Addr × Option Attrs)) (attrs : Attrs)   -- RecoveredGroup
  deriving DecidableEq, Repr, Inhabited

/-- an object: class and value -/
structure Obj where
  cls : Cls
  val : Val
  deriving DecidableEq, Repr, Inhabited

/-- the heap: address = index -/
abbrev Heap := List Obj

/-- what a class constructor is called with by the load functions -/
inductive CtorArg where
  | empty                          -- cls(())
  | np (v : NpVal)                 -- cls(numpy scalar)
  | text (s : Bytes)               -- cls(memoryview of ascii digits)
  | chars (b : Bytes)              -- cls(numpy S1 array of shape (1,n))
  | str (s : PyStr)                -- cls(str)
  | items (l : List Addr)          -- cls(list or array items)
  | pairs (l : List (Addr × Addr)) -- cls(list of key/value pairs)
  deriving DecidableEq, Repr

/-- where the class is defined: decides which loader module hickle looks for -/
inductive Origin where
  | core                    -- a hickle module outside hickle.loaders
  | dummy (loader : String) -- hickle.loaders.load_<loader>: a loader's dummy class
  | pkg (p : String)        -- top level package p
  deriving DecidableEq, Repr

/-- what hickle can observe of a class that is not one of the named ones -/
structure UserCls where
  /-- `__name__` -/
  name : String
  origin : Origin
  /-- method resolution order without the class itself -/
  bases : List Cls
  /-- `pickle.dumps(cls)` succeeds -/
  picklable : Bool
  /-- `pickle.loads` of the class reference succeeds when loading -/
  importable : Bool
  /-- constructor called by load functions -/
  ctor : CtorArg → Except PyErr Val

/-- `cls.mro()`; the classes of scipy between a sparse matrix class and `object` are left out: none of
them is registered, and the matrix classes themselves are -/
def Cls.mro (u : Nat → UserCls) : Cls → List Cls
  | .bool => [.bool, .int, .object]
  | .npBool => [.npBool, .npGeneric, .object]
  | .npInt64 => [.npInt64, .npNumber, .npGeneric, .object]
  | .npFloat64 => [.npFloat64, .npNumber, .npGeneric, .float, .object]
  | .npComplex128 => [.npComplex128, .npNumber, .npGeneric, .complex, .object]
  | .npNumber => [.npNumber, .npGeneric, .object]
  | .object => [.object]
  | .recGroup => [.recGroup, .dict, .object]
  | .recData => [.recData, .ndarray, .object]
  | .matrix => [.matrix, .ndarray, .object]
  | .masked => [.masked, .ndarray, .object]
  | .user k => .user k :: (u k).bases
  | c => [c, .object]

/-- `cls.__module__` (first components) -/
def Cls.origin (u : Nat → UserCls) : Cls → Origin
  | .nodeRef | .recover | .recGroup | .recData => .core
  | .npGeneric | .npNumber | .npBool | .npInt64 | .npFloat64 | .npComplex128 | .ndarray | .matrix | .masked => .pkg "numpy"
  | .csr | .csc | .bsr => .pkg "scipy"
  | .user k => (u k).origin
  | _ => .pkg "builtins"

/-- `cls.__name__` -/
def Cls.name (u : Nat → UserCls) : Cls → String
  | .noneType => "NoneType" | .bool => "bool" | .int => "int" | .float => "float"
  | .complex => "complex" | .str => "str" | .bytes => "bytes" | .list => "list"
  | .tuple => "tuple" | .set => "set" | .dict => "dict" | .object => "object"
  | .npGeneric => "generic" | .npNumber => "number" | .npBool => "bool_" | .npInt64 => "int64"
  | .npFloat64 => "float64" | .npComplex128 => "complex128" | .ndarray => "ndarray"
  | .matrix => "matrix" | .masked => "MaskedArray"
  | .csr => "csr_matrix" | .csc => "csc_matrix" | .bsr => "bsr_matrix"
  | .nodeRef => "NodeReference" | .recover => "AttemptRecoverCustom"
  | .recGroup => "RecoveredGroup" | .recData => "RecoveredDataset"
  | .user k => (u k).name

end Verif
