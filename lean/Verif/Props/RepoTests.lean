import Verif.Props.C39
import Verif.Hickle.Warnings
/-!
# The tests of the repository, run on the model

Not a property: a check that the model behaves as hickle's own tests say hickle behaves.  Each `example` transcribes the
part of a test in `/repo/hickle/tests` that lies within what is modelled, and the kernel computes the answer of the model.
Where a test asserts Python's `==`, the stronger statement is checked that every class and value in the loaded object is the
one that was dumped, unless the comment says otherwise.
-/
namespace Verif.Tests

/-- builds an object; the objects made so far are the heap -/
abbrev Build := StateM Heap Addr

def new (c : Cls) (v : Val) : Build := fun H => (H.length, H ++ [⟨c, v⟩])
def none : Build := new .noneType .none
def bool (b : Bool) : Build := new .bool (.bool b)
def int (i : Int) : Build := new .int (.int i)
/-- the float `m * 2 ^ e` -/
def float (m : Nat) (e : Int) : Build := new .float (.float (.fin false m e))
def str (s : String) : Build := new .str (.str (ps s))
def bytes (s : String) : Build := new .bytes (.bytes ((ps s).map UInt8.ofNat))
def all : List Build → StateM Heap (List Addr)
  | [] => pure []
  | b :: bs => do
    let a ← b
    let as ← all bs
    pure (a :: as)
def list (l : List Build) : Build := do new .list (.seq (← all l))
def tuple (l : List Build) : Build := do new .tuple (.seq (← all l))
def set (l : List Build) : Build := do new .set (.set (← all l))
def entries : List (Build × Build) → StateM Heap (List (Addr × Addr))
  | [] => pure []
  | (k, v) :: l => do
    let a ← k
    let b ← v
    let r ← entries l
    pure ((a, b) :: r)
def dict (l : List (Build × Build)) : Build := do new .dict (.dict (← entries l))
/-- `np.array([…])` of integers -/
def ints (l : List Int) : Build := new .ndarray (.arr .int64 [l.length] (l.map .i))
/-- `np.array([…])` of floats that are whole numbers -/
def floats (l : List Nat) : Build := new .ndarray (.arr .float64 [l.length] (l.map fun n => .f (.fin false n 0)))

/-- a value without the addresses in it -/
def strip : Val → Val
  | .seq l => .seq (l.map fun _ => 0)
  | .set l => .set (l.map fun _ => 0)
  | .dict l => .dict (l.map fun _ => (0, 0))
  | .oarr sh l => .oarr sh (l.map fun _ => 0)
  | .sparse _ _ _ sh => .sparse 0 0 0 sh
  | v => v

/-- a number, or the class and the value of something else -/
inductive Tok where
  | num (re im : XR)
  | obj (o : Obj)
  deriving DecidableEq

/-- an object as the list of the objects in it, level by level, without addresses; `n` bounds the depth.
With `cls` numbers are kept with their class, otherwise by value only. -/
def flat (cls : Bool) : Nat → Heap → Addr → List Tok
  | 0, _, _ => []
  | n + 1, H, a => match H[a]? with
    | Option.none => []
    | some o => (match cls, o.val.num? with
        | false, some v => .num v.val.1 v.val.2
        | _, _ => .obj ⟨o.cls, strip o.val⟩) :: o.val.children.flatMap (flat cls n H)

/-- dump to a new file and load: the loaded object -/
def reload (cls : Bool) (env : Env) (b : Build) : Option (List Tok) :=
  let r := b []
  match Ex.roundTrip env r.2 r.1 with
  | some (L, x) => some (flat cls 30 L x)
  | Option.none => Option.none

/-- what is loaded has the classes and the values of what was dumped -/
def same (b : Build) : Bool := decide (reload true Ex.env b = some (flat true 30 (b []).2 (b []).1))
/-- the same up to the classes of numbers, which Python's `==` does not see -/
def equal (b : Build) : Bool := decide (reload false Ex.env b = some (flat false 30 (b []).2 (b []).1))

/-! ### test_hickle.py -/

def i3 : Build := list [int 1, int 2, int 3]
def i6 : Build := list [int 4, int 5, int 6]
/-- `NESTED_DICT` (test_hickle.py:34-50) -/
def nested : Build := dict [
  (str "level1_1", dict [(str "level2_1", i3), (str "level2_2", i6)]),
  (str "level1_2", dict [(str "level2_1", i3), (str "level2_2", i6)]),
  (str "level1_3", dict [(str "level2_1", dict [(str "level3_1", i3), (str "level3_2", i6)]), (str "level2_2", i6)])]

-- test_string
example : same (str "The quick brown fox jumps over the lazy dog") = true := by decide +kernel
-- test_65bit_int
example : same (int (2 ^ 65 - 1)) = true ∧ same (int (-2 ^ 63 - 1)) = true := by decide +kernel
-- test_list: equal in Python; the numbers are `numpy.int64` (C10)
example : equal (list [int 1, int 2, int 3, int 4, int 5]) = true ∧ same (list [int 1, int 2, int 3, int 4, int 5]) = false := by decide +kernel
-- test_set: 4.5 and 11.2
example : equal (set [int 1, int 0, int 3, float 9 (-1), float 3152519739159347 (-48)]) = true := by decide +kernel
-- test_numpy, for the two of its four dtypes that the heap model has (the others: C51)
example : same (floats [1, 1, 1, 1, 1, 1, 1, 1]) = true ∧
    same (new .ndarray (.arr .complex128 [8] (List.replicate 8 (.c (.fin false 1 0) (.fin false 0 0))))) = true := by decide +kernel
-- test_masked
example : same (new .masked (.masked .float64 [4] ([1, 2, 3, 4].map fun n => .f (.fin false n 0)) (some [false, true, false, false]))) = true := by
  decide +kernel
-- test_object_numpy: `np.array([NESTED_DICT])` and `np.array(NESTED_DICT)`
example : equal (do new .ndarray (.oarr [1] [← nested])) = true ∧ equal (do new .ndarray (.oarr [] [← nested])) = true := by decide +kernel
-- test_string_numpy
example : same (new .ndarray (.sarr 6 [4] [ps "1313e", ps "was", ps "maybe?", ps "here"])) = true := by decide +kernel
-- test_list_object_numpy
example : equal (list [do new .ndarray (.oarr [] [← nested])]) = true := by decide +kernel
-- test_dict: 6.1
example : equal (dict [(str "name", bytes "Danny"), (str "age", int 28), (str "height", float 3433994715870003 (-49)),
    (str "dork", bool true), (str "nums", list [int 1, int 2, int 3]), (str "narr", ints [1, 2, 3])]) = true := by decide +kernel
-- test_empty_dict
example : same (dict []) = true := by decide +kernel
-- test_dict_int_key
example : same (dict [(int 0, str "test"), (int 1, str "test2")]) = true := by decide +kernel
-- test_dict_nested
example : equal nested = true := by decide +kernel
-- test_masked_dict
example : same (dict [(str "data", new .masked (.masked .int64 [3] [.i 1, .i 2, .i 3] (some [true, false, false]))),
    (str "data2", ints [1, 2, 3, 4, 5])]) = true := by decide +kernel
-- test_list_numpy, with 24 and 20 elements
example : same (list [floats (List.replicate 24 1), floats (List.replicate 20 0)]) = true := by decide +kernel
-- test_tuple_numpy: one array twice
example : same (do
    let a ← floats (List.replicate 24 1)
    let b ← floats (List.replicate 20 0)
    new .tuple (.seq [a, b, a])) = true := by decide +kernel
-- test_none
example : same none = true := by decide +kernel
-- test_list_order: more than ten items, so that the names are not in the order of the items
example : same (list ((List.range 20).map fun n => ints ((List.range (n + 1)).map Int.ofNat))) = true := by decide +kernel
-- test_embedded_array
example : same (list [list [floats [10, 20], ints [10, 20, 30]], list [ints [10, 2], floats [1]]]) = true := by decide +kernel
-- test_dump_nested: the sharing of generate_nested()
example : Ex.isOk (let r : Addr × Heap := (do
      let a ← list [int 1, int 2, int 3]
      let b ← new .list (.seq [a, a, a])
      let c ← list [pure a, pure b, str "s"]
      let d ← new .list (.seq [a, b, c, c, a])
      let e ← list [pure d, pure d, pure d, pure d, int 1]
      let f ← dict [(str "a", pure a), (str "b", pure b), (str "e", pure e)]
      let g ← dict [(str "f", pure f), (str "a", pure e), (str "d", pure d)]
      let h ← dict [(str "h", pure g), (str "g", pure f)]
      let z ← new .list (.seq [f, a, b, c, d, e, f, g, h, g, h])
      dict [(str "a", ints [1, 2, 3, 4]), (str "b", set [int 1, int 2, int 3, int 4, int 5]), (str "c", tuple [int 1, int 2, int 3, int 4, int 5]),
        (str "d", new .masked (.masked .int64 [8] ([1, 2, 3, 4, 5, 6, 7, 8].map fun n => .i n) Option.none)), (str "z", pure z)] : Build) []
    (dumpTop (Ex.args r.2 r.1) Ex.file0).1) = true := by decide +kernel
-- test_ndarray, test_ndarray_masked
example : same (tuple [ints [1, 2, 3], ints [2, 3, 4]]) = true ∧
    same (tuple [new .masked (.masked .int64 [3] [.i 1, .i 2, .i 3] Option.none),
      new .masked (.masked .int64 [3] [.i 2, .i 3, .i 4] (some [true, false, true]))]) = true := by decide +kernel
-- test_simple_dict
example : same (dict [(str "key1", int 1), (str "key2", int 2)]) = true := by decide +kernel
-- test_complex_dict: one dict twice
example : same (do
    let a ← dict [(str "akey", int 1), (str "akey2", int 2)]
    let c ← dict [(str "ckey", str "hello"), (str "ckey2", str "hi there")]
    dict [(str "zkey1", pure a), (str "zkey2", pure a), (str "zkey3", pure c)]) = true := by decide +kernel
-- test_complex
example : same (dict [(str "A", float 3 (-1)), (str "B", new .complex (.cplx (.fin false 3 (-1)) (.fin false 1 0))),
    (str "C", new .ndarray (.arr .complex128 [2] [.c (.fin false 0 0) (.fin false 1 1), .c (.fin false 1 0) (.fin false 1 1)]))]) = true := by
  decide +kernel
-- test_nonstring_keys: 1.1 and 17.4
example : equal (dict [(str "test", int 123), (str "def", list [bytes "test"]), (str "hik", ints [1, 2, 3]), (int 0, int 0),
    (bool true, list [str "test"]), (float 2476979795053773 (-51), str "hey"),
    (new .complex (.cplx (.fin false 0 0) (.fin false 1 0)), str "complex_hashable"), (tuple [int 1, int 2], str "boo"),
    (tuple [str "A", float 2448832297382707 (-47), int 42], list [int 1, int 7, str "A"]), (tuple [], str "1313e was here"),
    (str "0", int 0), (none, none)]) = true := by decide +kernel
-- test_scalar_compression: `compression='gzip'` does not reach scalar datasets
example : Ex.isOk (let r := (dict [(str "a", int 0), (str "b", float 1 1), (str "c", bool true)] : Build) []
    (dumpTop { Ex.args r.2 r.1 with kw := [.compression] } Ex.file0).1) = true := by decide +kernel
-- test_bytes
example : same (bytes "The quick brown fox jumps over the lazy dog") = true := by decide +kernel
-- test_np_scalar
example : same (dict [(str "test", new .npFloat64 (.np (.f (.fin false 5 1))))]) = true := by decide +kernel
-- test_slash_dict_keys: 1.4
example : same (dict [(str "a/b", list [int 1, str "2"]), (float 3152519739159347 (-51), int 3)]) = true ∧
    same (dict [(str "a\\b", list [int 1, str "2"]), (float 3152519739159347 (-51), int 3)]) = true := by decide +kernel

/-- the warnings of a dump to a new file -/
def warnings (b : Build) : List Warnings.Warn := (Warnings.dumpW (Ex.args (b []).2 (b []).1) (Ex.file0, [])).2.2

-- test_state_obj: an object without a loader is dumped with a SerializedWarning and loaded
example : (warnings (new (.user 0) (.opaque 5 true))).length = 1 ∧ same (new (.user 0) (.opaque 5 true)) = true := by decide +kernel
-- test_slash_dict_keys, second part: no warning
example : warnings (dict [(str "a\\b", list [int 1, str "2"]), (float 3152519739159347 (-51), int 3)]) = [] := by decide +kernel

/-! ### test_99_hickle_core.py -/

def dumpTo (b : Build) (f : FileArg) (mode path : String) (w : World) : Except PyErr Unit × World :=
  dumpFile (Ex.args (b []).2 (b []).1) f (ps mode) (ps path) .absent {} w

def loadFrom (f : FileArg) (path : String) (w : World) : Option (List Tok) × World :=
  match loadFile ⟨Ex.env, [], id, 100⟩ f (ps path) .absent {} w with
  | (.ok (L, x), w') => (some (flat false 30 L x), w')
  | (.error _, w') => (Option.none, w')

/-- what `==` compares -/
def value (b : Build) : Option (List Tok) := some (flat false 30 (b []).2 (b []).1)

/-- no files -/
def nothing : World := { reg := Registry.initial }
def file : FileArg := .name (ps "f.hkl")
def arange (n : Nat) : Build := ints ((List.range n).map Int.ofNat)

/-- a handle on a new file, as `h5py.File(name, 'w')` makes it -/
def opened : World := { files := [(.name (ps "f.hkl"), emptyStore)], handles := [{ src := .name (ps "f.hkl"), writable := true }], reg := Registry.initial }
def root (ro : Bool) : FileArg := .group ⟨true, ps "/", 0, ro⟩

-- test_invalid_file: a tuple is not a file
example : Ex.raised (dumpTo (str "test") (.seq []) "w" "/" nothing).1 = some .fileError := by decide +kernel
-- test_binary_file.  `open(filename, "w")`: not readable; "w+": readable and seekable, but `write(b'')` raises; "wb": not readable; "w+b"
example : Ex.raised (dumpTo none (.obj { id := 1, readable := some (.ok false), seekable := some (.ok true), write := some false }) "w" "/" nothing).1 = some .fileError ∧
    Ex.raised (dumpTo none (.obj { id := 1, readable := some (.ok true), seekable := some (.ok true), read := some true, seek := some true, tell := some true, write := some false }) "w" "/" nothing).1 = some .fileError ∧
    Ex.raised (dumpTo none (.obj { id := 1, readable := some (.ok false), seekable := some (.ok true), write := some true }) "w" "/" nothing).1 = some .fileError ∧
    Ex.isOk (dumpTo none (.obj { id := 1, readable := some (.ok true), seekable := some (.ok true), read := some true, seek := some true, tell := some true, write := some true }) "w" "/" nothing).1 = true := by decide +kernel
-- test_file_open_close: the same name twice; an open file with mode 'w'; a closed one; a group that is not empty
example : Ex.isOk (dumpTo (arange 5) file "w" "/" (dumpTo (arange 5) file "w" "/" nothing).2).1 = true ∧
    Ex.isOk (dumpTo (arange 5) (root false) "w" "/" opened).1 = true ∧
    Ex.raised (dumpTo (arange 5) (.group ⟨false, ps "/", 0, false⟩) "w" "/" opened).1 = some .closedFileError ∧
    Ex.raised (dumpTo (arange 5) (root false) "w" "/root_group" (dumpTo none (root false) "w" "/root_group" opened).2).1 = some .valueError := by
  decide +kernel
-- test_non_empty_group (test_hickle.py)
example : Ex.raised (dumpTo none file "r+" "/" (dumpTo none file "w" "/" nothing).2).1 = some .valueError := by decide +kernel

/-- test_hdf5_group: two dumps to groups of an open file -/
def groups : World :=
  let g1 : FileArg := .group ⟨true, ps "/test_group", 0, false⟩
  let g2 : FileArg := .group ⟨true, ps "/test_group2", 0, false⟩
  (dumpTo (arange 8) g2 "w" "deeper/and_deeper" (dumpTo (arange 5) g1 "w" "/" opened).2).2

example : (loadFrom file "/test_group" groups).1 = value (arange 5) ∧
    (loadFrom file "/test_group2/deeper_/and_deeper" groups).1 = Option.none ∧
    (loadFrom file "/test_group2/deeper/and_deeper" groups).1 = value (arange 8) ∧
    (loadFrom (.group ⟨true, ps "/test_group2", 0, true⟩) "deeper/and_deeper" groups).1 = value (arange 8) := by decide +kernel

/-- test_with_open_file: four dumps to an open file -/
def four : World :=
  (dumpTo (ints [1]) (root false) "w" "/arr" (dumpTo (dict [(int 1, int 1)]) (root false) "w" "/dct"
    (dumpTo (tuple [int 1]) (root false) "w" "/tpl" (dumpTo (list [int 1]) (root false) "w" "/lst" opened).2).2).2).2

example : (loadFrom (root false) "/lst" four).1 = value (list [int 1]) ∧ (loadFrom (root false) "/tpl" four).1 = value (tuple [int 1]) ∧
    (loadFrom (root false) "/dct" four).1 = value (dict [(int 1, int 1)]) ∧ (loadFrom (root false) "/arr" four).1 = value (ints [1]) := by decide +kernel

-- test_load: tuples of sets, shared many times
example : equal (do
    let a ← set [int 1, int 2, int 3, int 4]
    let b ← set [int 5, int 6, int 7, int 8]
    let c ← set [int 9, int 10, int 11, int 12]
    let z ← new .tuple (.seq [a, b, c])
    let z ← new .list (.seq [z, z])
    new .tuple (.seq [z, z, z, z, z])) = true := by decide +kernel

/-- test_multi_hickle -/
def multi : World :=
  let a := dict [(str "a", int 123), (str "b", list [int 1, int 2, int 4])]
  (dumpTo a file "r+" "/test4" (dumpTo a file "r+" "/test3" (dumpTo a file "r+" "/test2" (dumpTo a file "w" "/test" nothing).2).2).2).2

example : ∀ p ∈ ["/test", "/test2", "/test3", "/test4"],
    (loadFrom file p multi).1 = value (dict [(str "a", int 123), (str "b", list [int 1, int 2, int 4])]) := by decide +kernel

/-- the store after a dump to a new file, and the node at a path -/
def dumpNew (b : Build) : Store := (dumpTop (Ex.args (b []).2 (b []).1) Ex.file0).2.store
def at' (b : Build) (path : List String) : Option Node := ((dumpNew b).resolve 0 (path.map ps)).bind fun n => (dumpNew b)[n]?
def dataAt (b : Build) (path : List String) : Option Data := (at' b path).bind fun n => match n.body with
  | .dset d => some d
  | .group _ => Option.none
def attrAt (b : Build) (path : List String) (k : String) : Option AttrVal := (at' b path).bind fun n => Assoc.get? n.attrs k
def isGroupAt (b : Build) (path : List String) : Option Bool := (at' b path).map Node.isGroup
/-- `memo.resolve_type(node)` -/
def typeAt (b : Build) (path : List String) : Option (Cls × String × Bool) := (at' b path).bind fun n =>
  match resolveType ⟨Ex.env, ⟨[Option.none]⟩, dumpNew b, id⟩ n { heap := loadHeap, reg := Registry.initial } with
  | (.ok r, _) => some (r.cls, r.base, r.isCont)
  | _ => Option.none

-- test_improper_attrs: without HICKLE_VERSION the file is refused
example : Ex.raised (loadTop ⟨Ex.env, [], id, 100⟩ { Ex.file0 with store := (dumpNew (str "my name? Ha I'm Nobody")).map fun n =>
    { n with attrs := n.attrs.filter fun p => p.1 ≠ "HICKLE_VERSION" } }).1 = some .valueError := by decide +kernel

-- test_recursive_dump: a list
example : typeAt (list [int 1, int 2, int 3, int 4]) ["data"] = some (.list, "list", false) ∧
    dataAt (list [int 1, int 2, int 3, int 4]) ["data"] = some (.vec .int64 [.i 1, .i 2, .i 3, .i 4]) := by decide +kernel

/-- the dict of test_recursive_dump -/
def some_dict : Build := dict [(str "12", int 12), (tuple [int 1, int 2, int 3], str "hallo")]

example : typeAt some_dict ["data"] = some (.dict, "dict", true) := by decide +kernel
example : dataAt some_dict ["data", "\"12\""] = some (.scalar (.i 12)) ∧ attrAt some_dict ["data", "\"12\""] "key_base_type" = some (.bytes "str") ∧
    typeAt some_dict ["data", "\"12\""] = some (.int, "int", false) := by decide +kernel
example : attrAt some_dict ["data", "data1"] "key_base_type" = some (.bytes "key_value") ∧ typeAt some_dict ["data", "data1"] = some (.tuple, "tuple", true) := by
  decide +kernel
example : dataAt some_dict ["data", "data1", "data0"] = some (.vec .int64 [.i 1, .i 2, .i 3]) ∧
    typeAt some_dict ["data", "data1", "data0"] = some (.tuple, "tuple", false) ∧
    dataAt some_dict ["data", "data1", "data1"] = some (.chars (asciiBytes (ps "hallo"))) ∧
    typeAt some_dict ["data", "data1", "data1"] = some (.str, "str", false) := by decide +kernel

/-! ### test_03_load_builtins.py -/

-- test_scalar_dataset: 5.2, 11, 2**65, 2**63+1
example : dataAt (float 5854679515581645 (-50)) ["data"] = some (.scalar (.f (.fin false 5854679515581645 (-50)))) ∧ same (float 5854679515581645 (-50)) = true := by
  decide +kernel
example : dataAt (int 11) ["data"] = some (.scalar (.i 11)) := by decide +kernel
example : dataAt (int (2 ^ 65)) ["data"] = some (.raw (asciiBytes (ps "36893488147419103232"))) := by decide +kernel
example : dataAt (int (2 ^ 63 + 1)) ["data"] = some (.raw (asciiBytes (ps "9223372036854775809"))) ∧ same (int (2 ^ 63 + 1)) = true := by decide +kernel
-- test_non_dataset
example : dataAt none ["data"] = some (.null "V1") := by decide +kernel
-- test_listlike_dataset: an empty tuple, a string, a byte string
example : same (tuple []) = true ∧ (at' (tuple []) ["data"]).map (fun n => match n.body with | .dset (.null _) => true | _ => false) = some true := by decide +kernel
example : dataAt (str "string_data") ["data"] = some (.chars (asciiBytes (ps "string_data"))) ∧ attrAt (str "string_data") ["data"] "str_type" = some (.bytes "str") := by
  decide +kernel
example : dataAt (bytes "bytes_data") ["data"] = some (.chars (asciiBytes (ps "bytes_data"))) ∧ attrAt (bytes "bytes_data") ["data"] "str_type" = some (.bytes "bytes") := by
  decide +kernel
-- … one type; several types with a common one (2.5 and 3.8)
example : dataAt (list [int 1, float 5 (-1), float 4278419646001971 (-50), int 4, int 5, int 6]) ["data"] =
    some (.vec .float64 [.f (.fin false 1 0), .f (.fin false 5 (-1)), .f (.fin false 4278419646001971 (-50)), .f (.fin false 4 0), .f (.fin false 5 0), .f (.fin false 6 0)]) := by
  decide +kernel
-- … a list in the list: a group, the index of each item in an attribute and in its name
def not_so_homogenous : Build := list [int 1, int 2, int 3, list [int 4], int 5, int 6]
example : isGroupAt not_so_homogenous ["data"] = some true ∧ attrAt not_so_homogenous ["data"] "num_items" = some (.int 6) ∧
    (List.range 6).all (fun i => decide (attrAt not_so_homogenous ["data", String.ofList ("data".toList ++ Nat.toDigits 10 i)] "item_index" = some (.int i))) = true := by
  decide +kernel
example : equal not_so_homogenous = true ∧ equal (list [list [int 4, int 5], int 6, list [int 1, int 2, int 3]]) = true := by decide +kernel
-- … strings the first of which has one character; numbers and strings (2.8)
example : same (list [str "I", str "confess", str "appriciate", str "hickle", str "times"]) = true ∧
    same (list [int 12, float 3152519739159347 (-50), str "I", str "confess"]) = true := by decide +kernel

-- ListLikeContainer.append: index from the name, the empty tuple is ignored, `KeyError`, `IndexError`
example : (listAppend [0, 0, 0] (ps "data1") 7 []).toOption = some [0, 7, 0] ∧ (listAppend [] (ps "data1") 7 []).toOption = some [0, 7] ∧
    (listAppend [0, 0, 0] (ps "data1_ni") nobody []).toOption = some [0, 0, 0] ∧
    Ex.raised (listAppend [0, 0, 0] (ps "data1_ni") 7 []) = some .keyError ∧
    Ex.raised (listAppend [0, 7, 0] (ps "data2") 8 [("item_index", .int 1)]) = some .indexError := by decide +kernel

-- test_set_container: strings, single bytes as numbers, byte strings, the empty set
example : same (set [str "I", str "confess", str "appriciate", str "hickle", str "times"]) = true ∧
    equal (set [int 104, int 101, int 108, int 111]) = true ∧
    (dataAt (set [int 104, int 101, int 108, int 111]) ["data"]).isSome = true ∧
    same (set [bytes "I", bytes "confess", bytes "appriciate"]) = true ∧ same (set []) = true := by decide +kernel

-- test_dictlike_dataset: 0.25, complex(1,2), None, a tuple and an object without a loader as keys
example : equal (dict [(str "string_key", int 0), (bytes "bytes_key", int 1), (int 12, int 2), (float 1 (-2), int 3),
    (new .complex (.cplx (.fin false 1 0) (.fin false 1 1)), int 4), (none, int 5), (tuple [int 1, int 2, int 3], int 6),
    (new (.user 0) (.opaque 5 true), int 7)]) = true := by decide +kernel

-- DictLikeContainer.append: unknown key type, missing key_idx, the empty tuple is ignored, an index twice
def appendTo (content : List DItem) (name : String) (a : Addr) (attrs : Attrs) : Except PyErr (List DItem) :=
  (dictAppend Ex.env content (ps name) a attrs { heap := loadHeap, reg := Registry.initial }).1
example : Ex.raised (appendTo [] "invalid_key_type" 7 [("key_idx", .int 9), ("key_base_type", .bytes "invalid_type")]) = some .valueError ∧
    Ex.raised (appendTo [] "12" 7 [("item_index", .int 9), ("key_base_type", .bytes "int")]) = some .keyError ∧
    (appendTo [] "12" nobody [("item_index", .int 9), ("key_base_type", .bytes "int")]).toOption = some [] ∧
    Ex.raised (appendTo [.pair 1 7] "12" 7 [("key_idx", .int 0), ("key_base_type", .bytes "int")]) = some .indexError := by decide +kernel

/-! ### test_02_hickle_lookup.py -/

-- test_LoaderManager_register_class
example : let r := (registerClass { cls := .int, base := "int", dump := some .scalar, load := some .scalar, memoise := false } {}).2
    Assoc.get? r.glob.types .int = some ⟨.scalar, "int", false⟩ ∧ Assoc.get? r.glob.fns "int" = some .scalar ∧ Assoc.get? r.glob.conts "int" = Option.none := by decide +kernel
example : let r := (registerClass { cls := .list, base := "list", dump := some .listlike, cont := some .listLike } {}).2
    Assoc.get? r.glob.types .list = some ⟨.listlike, "list", true⟩ ∧ Assoc.get? r.glob.fns "list" = Option.none ∧ Assoc.get? r.glob.conts "list" = some .listLike := by decide +kernel
example : let r := (registerClass { cls := .tuple, base := "tuple", load := some .list, cont := some .listLike } {}).2
    Assoc.get? r.glob.types .tuple = Option.none ∧ Assoc.get? r.glob.fns "tuple" = some .list ∧ Assoc.get? r.glob.conts "tuple" = some .listLike := by decide +kernel
-- … classes that only hickle may register (`_DictItem` in the test), names of its own loaders, unknown options
example : Ex.raised (registerClass { cls := .object, base := "pickle", cont := some .listLike, src := .foreign } {}).1 = some .typeError ∧
    Ex.raised (registerClass { cls := .object, base := "pickle", cont := some .listLike, src := .hickleLoader } {}).1 = some .typeError ∧
    Ex.isOk (registerClass { cls := .object, base := "pickle", cont := some .listLike, src := .core } {}).1 = true ∧
    Ex.raised (registerClass { cls := .int, base := "!node-reference!", dump := some .scalar, load := some .scalar, option := some "custom" } Registry.initial).1 = some .valueError ∧
    Ex.raised (registerClass { cls := .int, base := "int", dump := some .scalar, load := some .scalar, option := some "mine" } {}).1 = some .lookupError := by decide +kernel
-- test_LoaderManager_register_class_exclude
example : Ex.raised (registerExclude "dict_item" Option.none {}).1 = some .valueError ∧ Ex.isOk (registerExclude "tuple" Option.none {}).1 = true ∧
    Ex.raised (registerExclude "tuple" (some "compact") {}).1 = some .lookupError := by decide +kernel

/-- `LoaderManager(h5_data, False, options).types_dict.maps` and the attributes of the group -/
def managerFor (o : Option (List (String × Bool))) (s : Session) : Except PyErr (List Opt) × Session := optionMaps 0 o s
-- test_LoaderManager
example : ((managerFor (some []) Ex.file0).1).toOption = some [Option.none] ∧
    ((managerFor (some [("custom", true)]) Ex.file0).1).toOption = some [some "custom", Option.none] ∧
    ((managerFor Option.none (managerFor (some [("custom", true)]) Ex.file0).2).1).toOption = some [some "custom", Option.none] ∧
    ((managerFor (some [("custom", false)]) Ex.file0).1).toOption = some [Option.none] ∧
    (managerFor (some [("custom", false)]) Ex.file0).2.store.attrs 0 = some [] ∧
    Ex.raised (managerFor (some [("compact", true)]) Ex.file0).1 = some .lookupError := by decide +kernel
-- test_LoaderManager_create_manager, test_LoaderManager_context: one manager at a time
example : Ex.raised (loaderEnter 0 (some []) (loaderEnter 0 (some []) Ex.file0).2).1 = some .lookupError ∧
    Ex.isOk (loaderEnter 0 (some []) (loaderExit (loaderEnter 0 (some []) Ex.file0).2).2).1 = true := by decide +kernel
-- test_ReferenceManager_create_manager, test_ReferenceManager_context
example : Ex.raised (refEnter Ex.env 0 (refEnter Ex.env 0 Ex.file0).2).1 = some .lookupError ∧
    (refExit ⟨some 1, [], [], []⟩ (refEnter Ex.env 0 Ex.file0).2).2.ref = false := by decide +kernel

/-- `loader.load_loader(cls, base_type=…)` -/
def loaderOf (env : Env) (c : Cls) (base : Option String) : Except PyErr (Cls × Entry) := (loadLoader env ⟨[Option.none]⟩ c base Registry.initial).1
/-- classes of hickle itself, of hickle.loaders, of a loader module, and a subclass of `dict` -/
def classes : Nat → UserCls
  | 0 => { name := "ToBeInLoadersOrNotToBe", origin := .core, bases := [.object], picklable := true, importable := true, ctor := fun _ => .error .typeError }
  | 1 => { name := "ToBeInLoadersOrNotToBe", origin := .dummy "builtins", bases := [.object], picklable := true, importable := true, ctor := fun _ => .error .typeError }
  | 2 => { name := "OrderedDict", origin := .pkg "collections", bases := [.dict, .object], picklable := true, importable := true, ctor := fun _ => .error .typeError }
  | _ => { name := "ClassToDump", origin := .pkg "tests", bases := [.object], picklable := true, importable := true, ctor := fun _ => .error .typeError }
def testEnv : Env := { Ex.env with u := classes }
-- test_LoaderManager_load_loader: a loader module is loaded on demand; classes of hickle must be registered before; no loader: pickle;
-- a class without a loader of its own takes the one of its base
example : (loaderOf testEnv .dict Option.none).toOption = some (.dict, ⟨.dictlike, "dict", true⟩) ∧
    Ex.raised (loaderOf testEnv (.user 0) Option.none) = some .runtimeError ∧
    (loaderOf testEnv (.user 3) Option.none).toOption = some (.object, ⟨.pickled, "pickle", true⟩) ∧
    (loaderOf testEnv (.user 2) Option.none).toOption = some (.user 2, ⟨.dictlike, "dict", true⟩) := by decide +kernel
-- … one that can only be loaded, and a dummy class of a loader module
example : ((registerClass { cls := .user 0, base := "s.pear", load := some .nothing, src := .core } Registry.initial).2 |> fun r =>
      (Ex.raised (loadLoader testEnv ⟨[Option.none]⟩ (.user 0) Option.none r).1,
       (loadLoader testEnv ⟨[Option.none]⟩ (.user 0) (some "s.pear") r).1.toOption)) =
    (some .runtimeError, some (.user 0, ⟨.notDumpable, "s.pear", true⟩)) := by decide +kernel
example : (loaderOf testEnv (.user 1) Option.none).toOption = some (.user 1, ⟨.notDumpable, "NotHicklable", false⟩) := by decide +kernel

/-- the classes of the tests when `ClassToDump` can not be imported any more -/
def lostEnv : Env := { Ex.env with u := fun _ => { classes 3 with importable := false } }
-- test_create_pickled_dataset: the pickle string is recovered when the class is gone
example : ((loadPickled Ex.env (.pickleObj (.user 3) 5) [] { heap := loadHeap, reg := Registry.initial }).2.heap[1]?).map (fun o => (o.cls, o.val)) = some (.user 3, .opaque 5 true) ∧
    ((loadPickled lostEnv (.pickleObj (.user 3) 5) [] { heap := loadHeap, reg := Registry.initial }).2.heap[1]?).map Obj.cls = some .recData := by decide +kernel

/-- `h_node.create_group('some_list')` in a new file with an empty types table -/
def typed (cls : Cls) (base : String) : Except PyErr Unit × DState :=
  storeType ⟨Ex.env, ⟨[Option.none]⟩, [], 2⟩ 1 cls base
    { heap := [], store := [⟨[], [], .group [(ps "some_list", 1), (tableName, 2)]⟩, ⟨ps "some_list", [], .group []⟩, ⟨tableName, [], .group []⟩],
      tlinks := [], blinks := [], reg := Registry.initial }
-- test_ReferenceManager_store_type: nothing for `object`, no empty base type, an entry for the class and one for the base type
example : Ex.isOk (typed .object "").1 = true ∧ ((typed .object "").2.store.links 2) = some [] ∧
    Ex.raised (typed .list "").1 = some .valueError ∧
    (typed .list "list").2.store.attrs 1 = some [("type", .ref 3)] ∧
    ((typed .list "list").2.store[3]?).map Node.body = some (.dset (.pickleCls .list)) ∧
    (typed .list "list").2.store.attrs 3 = some [("base_type", .ref 4)] ∧
    ((typed .list "list").2.store[4]?).map (fun n => (n.name, n.body)) = some (ps "list", .dset (.null "S1")) := by decide +kernel

/-- a table with the entries of test_ReferenceManager; `attr` is the attribute `base_type` of the entry of `list` -/
def table (attrs : Attrs) : Session := { Ex.file0 with store := [⟨[], [], .group [(tableName, 1)]⟩,
  ⟨tableName, [], .group [(ps "0", 2), (ps "int", 3), (ps "2", 4), (ps "list", 5), (ps "4", 6), (ps "lost", 7)]⟩,
  ⟨ps "0", [("base_type", .ref 3)], .dset (.pickleCls .int)⟩, ⟨ps "int", [], .dset (.null "S1")⟩,
  ⟨ps "2", attrs, .dset (.pickleCls .list)⟩, ⟨ps "list", [], .dset (.null "S1")⟩,
  ⟨ps "4", [("base_type", .ref 7)], .dset (.pickleCls (.user 3))⟩, ⟨ps "lost", [], .dset (.null "S1")⟩] }
-- test_ReferenceManager: the tables read from the file; entries without, with another and with a stale base type
/-- what was read: links of classes, classes of links, links of base types -/
def read : Option RefMgr := (refInit lostEnv 0 (table [("base_type", .ref 5)])).1.toOption
example : (read.bind fun m => Assoc.get? m.tl .int) = some 2 ∧ (read.bind fun m => Assoc.get? m.tc 2) = some (.known .int "int") ∧
    (read.bind fun m => Assoc.get? m.bl "int") = some 3 ∧ (read.bind fun m => Assoc.get? m.tl .list) = some 4 := by decide +kernel
example : (read.bind fun m => Assoc.get? m.tc 4) = some (.known .list "list") ∧ (read.bind fun m => Assoc.get? m.bl "list") = some 5 ∧
    (read.bind fun m => Assoc.get? m.bl "lost") = some 7 ∧ (read.bind fun m => Assoc.get? m.tc 6) = some (.lost "lost") := by decide +kernel
example : Ex.raised (refInit lostEnv 0 (table [])).1 = some .referenceError ∧ Ex.raised (refInit lostEnv 0 (table [("base_type", .bytes "list")])).1 = some .referenceError ∧
    Ex.raised (refInit lostEnv 0 (table [("base_type", .ref 99)])).1 = some .referenceError := by decide +kernel
-- … a table that is a dataset; no table in a file opened for reading
example : Ex.raised (refInit Ex.env 0 { Ex.file0 with store := [⟨[], [], .group [(tableName, 1)]⟩, ⟨tableName, [], .dset (.scalar (.i 12))⟩] }).1 = some .referenceError ∧
    (refInit Ex.env 0 { Ex.file0 with writable := false }).1.toOption.map (fun m => m.table) = some Option.none := by decide +kernel

/-- `memo.resolve_type(node)`, in a file with the table of above -/
def typeOf (env : Env) (n : Node) : Except PyErr (Cls × String × String × Bool) :=
  match resolveType ⟨env, ⟨[Option.none]⟩, (table [("base_type", .ref 5)]).store, id⟩ n { heap := loadHeap, reg := Registry.initial } with
  | (.ok r, _) => .ok (r.cls, r.base, r.orig, r.isCont)
  | (.error e, _) => .error e
-- test_ReferenceManager_resolve_type
example : Ex.raised (typeOf Ex.env ⟨ps "invalid_pickle_and_ref", [], .group []⟩) = some .referenceError ∧
    (typeOf Ex.env ⟨ps "pickled_data", [], .dset (.raw [])⟩).toOption = some (.object, "pickle", "pickle", false) ∧
    (typeOf Ex.env ⟨ps "shared_ref", [], .dset (.ref 3)⟩).toOption = some (.nodeRef, "!node-reference!", "!node-reference!", true) := by decide +kernel
example : (typeOf Ex.env ⟨ps "old_style_typed", [("type", .pcls .int), ("base_type", .bytes "int")], .dset (.scalar (.i 12))⟩).toOption = some (.int, "int", "int", false) ∧
    Ex.raised (typeOf Ex.env ⟨ps "broken_old_style", [("type", .int 12), ("base_type", .bytes "int")], .dset (.scalar (.i 12))⟩) = some .referenceError := by decide +kernel
example : (typeOf Ex.env ⟨ps "new_style_typed", [("type", .ref 2)], .dset (.scalar (.i 12))⟩).toOption = some (.int, "int", "int", false) ∧
    Ex.raised (typeOf Ex.env ⟨ps "stale_new_style", [("type", .ref 99)], .dset (.scalar (.i 12))⟩) = some .referenceError := by decide +kernel
example : (typeOf lostEnv ⟨ps "no_recoverable_type", [("type", .ref 6)], .dset (.scalar (.i 42))⟩).toOption = some (.recover, "!recover!", "lost", false) ∧
    ((typeOf lostEnv ⟨ps "no_recoverable_type", [("type", .pcls (.user 3)), ("base_type", .bytes "lost")], .dset (.scalar (.i 42))⟩).toOption.map fun r => (r.1, r.2.1)) =
      some (.recover, "!recover!") := by decide +kernel

end Verif.Tests
